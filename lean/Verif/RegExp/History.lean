import Verif.RegExp.Demo

/-!
# A call does not depend on earlier calls (C30)

Two runs with different memories proceed in step as long as the fields of the nodes *entered* agree; entering a node sets its fields.
-/
namespace Verif.RegExp

def isRange : Node → Bool
  | .rangeN _ _ | .rangeNM _ _ _ | .ngRangeN _ _ | .ngRangeNM _ _ _ => true
  | _ => false

def isRangeNM : Node → Bool
  | .rangeNM _ _ _ | .ngRangeNM _ _ _ => true
  | _ => false

/-- the fields used by a node agree -/
def AgreeN (n : Node) (v v' : Vars) : Prop :=
  (isBracket n = true → v.start = v'.start) ∧ (isRange n = true → v.p0 = v'.p0 ∧ v.old = v'.old) ∧ (isRangeNM n = true → v.p1 = v'.p1)

/-- the nodes entered agree -/
def Live (m m' : Mem) (pos : List (List Node)) : Prop :=
  ∀ n ns up, (n :: ns) :: up <:+ pos → AgreeN n (m.vars (addr ((n :: ns) :: up))) (m'.vars (addr ((n :: ns) :: up)))

/-- fields that agree go on agreeing -/
def Grow (m m' m1 m1' : Mem) : Prop :=
  ∀ a, ((m.vars a).start = (m'.vars a).start → (m1.vars a).start = (m1'.vars a).start) ∧
    ((m.vars a).p0 = (m'.vars a).p0 → (m1.vars a).p0 = (m1'.vars a).p0) ∧
    ((m.vars a).p1 = (m'.vars a).p1 → (m1.vars a).p1 = (m1'.vars a).p1) ∧
    ((m.vars a).old = (m'.vars a).old → (m1.vars a).old = (m1'.vars a).old)

theorem Live.grow {m m' m1 m1' : Mem} {pos : List (List Node)} (h : Live m m' pos) (g : Grow m m' m1 m1') : Live m1 m1' pos := by
  intro n ns up hs
  obtain ⟨a, b, c⟩ := h n ns up hs
  obtain ⟨g1, g2, g3, g4⟩ := g (addr ((n :: ns) :: up))
  exact ⟨fun x => g1 (a x), fun x => ⟨g2 (b x).1, g4 (b x).2⟩, fun x => g3 (c x)⟩

theorem Live.tail {m m' : Mem} {x : List Node} {pos : List (List Node)} (h : Live m m' (x :: pos)) : Live m m' pos :=
  fun n ns up hs => h n ns up (hs.trans (List.suffix_cons _ _))

theorem Live.cons {m m' : Mem} {n : Node} {ns : List Node} {up : List (List Node)} (h : Live m m' up)
    (hn : AgreeN n (m.vars (addr ((n :: ns) :: up))) (m'.vars (addr ((n :: ns) :: up)))) : Live m m' ((n :: ns) :: up) := by
  intro n' ns' up' hs
  rcases List.suffix_cons_iff.mp hs with h1 | h1
  · cases h1; exact hn
  · exact h n' ns' up' h1

/-- the groups in use agree -/
structure AgreeG (env : Env) (m m' : Matches) : Prop where
  s : ∀ i, i < env.cMatch → m.s i = m'.s i
  e : ∀ i, i < env.cMatch → m.e i = m'.e i
  ns : ∀ i, i < env.cnMatch → m.ns i = m'.ns i
  ne : ∀ i, i < env.cnMatch → m.ne i = m'.ne i

structure AgreeM (env : Env) (m m' : Mem) : Prop where
  g : AgreeG env m.m m'.m
  st : m.startChange = m'.startChange
  en : m.endChange = m'.endChange

def CfgLive (m m' : Mem) (c : Cfg) : Prop := if c.left then Live m m' c.pos.tail else Live m m' c.pos

def ResLive (m m' : Mem) : Res → Prop
  | .goto c => CfgLive m m' c
  | .call c _ _ => CfgLive m m' c
  | _ => True

structure Two (env : Env) (m m' : Mem) (r r' : Res × Mem) : Prop where
  res : r.1 = r'.1
  mem : AgreeM env r.2 r'.2
  grow : Grow m m' r.2 r'.2
  live : ResLive r.2 r'.2 r.1

theorem Grow.refl (m m' : Mem) : Grow m m' m m' := fun _ => ⟨id, id, id, id⟩

theorem Grow.of_vars {m m' m1 m1' : Mem} (h : m1.vars = m.vars) (h' : m1'.vars = m'.vars) : Grow m m' m1 m1' := by
  intro a; rw [h, h']; exact ⟨id, id, id, id⟩

theorem grow_set {m m' : Mem} {a : Addr} {v v' : Vars} (h1 : (m.vars a).start = (m'.vars a).start → v.start = v'.start)
    (h2 : (m.vars a).p0 = (m'.vars a).p0 → v.p0 = v'.p0) (h3 : (m.vars a).p1 = (m'.vars a).p1 → v.p1 = v'.p1)
    (h4 : (m.vars a).old = (m'.vars a).old → v.old = v'.old) : Grow m m' (m.set a v) (m'.set a v') := by
  intro b
  simp only [Mem.set]
  by_cases hb : b = a
  · subst hb; simp only [if_true]; exact ⟨h1, h2, h3, h4⟩
  · simp only [hb, if_false]; exact ⟨id, id, id, id⟩

theorem live_left {m m' : Mem} {x : List Node} {up : List (List Node)} {q : Int} (h : Live m m' up) : CfgLive m m' ⟨x :: up, true, q⟩ := by
  simpa [CfgLive] using h

theorem tested_two {env : Env} {m m' : Mem} {ns : List Node} {up : List (List Node)} (c : Chk) (hm : AgreeM env m m') (h : Live m m' up) :
    Two env m m' (tested ns up c, m) (tested ns up c, m') := by
  refine ⟨rfl, hm, Grow.refl _ _, ?_⟩
  cases c with
  | no => trivial
  | oob => trivial
  | yes q => exact live_left h

theorem ref_two (env : Env) (count : Nat) (s e s' e' : Nat → Int) (n : Nat) (q : Int) (hs : ∀ i, i < count → s i = s' i)
    (he : ∀ i, i < count → e i = e' i) : checkRef env count s e n q = checkRef env count s' e' n q := by
  unfold checkRef
  split
  · rfl
  · rw [hs n (by omega), he n (by omega)]

theorem close_two {env : Env} {m m' : Mem} (hm : AgreeM env m m') (i : Nat) (s q : Int) : AgreeM env (m.close i s q) (m'.close i s q) := by
  obtain ⟨⟨h1, h2, h3, h4⟩, h5, h6⟩ := hm
  have he : ∀ j, j < env.cMatch → (m.close i s q).m.e j = (m'.close i s q).m.e j := by
    intro j hj
    rw [close_e, close_e, h6, h2 j hj]
  refine ⟨⟨fun j hj => ?_, he, h3, h4⟩, h5, h6⟩
  by_cases hji : j = i
  · subst hji
    rw [close_s_same, close_s_same, he j hj, h5, h1 j hj]
  · rw [close_s_other _ _ _ _ _ hji, close_s_other _ _ _ _ _ hji, h1 j hj]

theorem closeNamed_two {env : Env} {m m' : Mem} (hm : AgreeM env m m') (i : Nat) (s q : Int) :
    AgreeM env (m.closeNamed i s q) (m'.closeNamed i s q) := by
  obtain ⟨⟨h1, h2, h3, h4⟩, h5, h6⟩ := hm
  refine ⟨⟨h1, h2, fun j hj => ?_, fun j hj => ?_⟩, h5, h6⟩
  · simp only [Mem.closeNamed, upd, h3 j hj]
  · simp only [Mem.closeNamed, upd, h4 j hj]

theorem mark_two {env : Env} {m m' : Mem} (hm : AgreeM env m m') (q : Int) (k : Meta) : AgreeM env (markMeta m q k) (markMeta m' q k) := by
  obtain ⟨⟨h1, h2, h3, h4⟩, h5, h6⟩ := hm
  cases k <;> first
    | exact ⟨⟨h1, h2, h3, h4⟩, h5, h6⟩
    | exact ⟨⟨fun j hj => by simp only [markMeta, upd, h1 j hj], h2, h3, h4⟩, rfl, h6⟩
    | exact ⟨⟨h1, fun j hj => by simp only [markMeta, upd, h2 j hj], h3, h4⟩, h5, rfl⟩

theorem set_two {env : Env} {m m' : Mem} (hm : AgreeM env m m') (a : Addr) (v v' : Vars) : AgreeM env (m.set a v) (m'.set a v') :=
  ⟨hm.g, hm.st, hm.en⟩

theorem initVars_agree {n : Node} {v v' : Vars} {left : Bool} {p0 p1 : Int} (hb : isBracket n = false)
    (h : left = false → AgreeN n v v') : AgreeN n (initVars v left p0 p1) (initVars v' left p0 p1) := by
  cases left with
  | true => exact ⟨by simp [hb], fun _ => ⟨rfl, rfl⟩, fun _ => rfl⟩
  | false => exact h rfl

theorem initVarsN_agree {n : Node} {v v' : Vars} {left : Bool} {p0 : Int} (hr : isRangeNM n = false) (hb : isBracket n = false)
    (h : left = false → AgreeN n v v') : AgreeN n (initVars v left p0 v.p1) (initVars v' left p0 v'.p1) := by
  cases left with
  | true => exact ⟨by simp [hb], fun _ => ⟨rfl, rfl⟩, by simp [hr]⟩
  | false => exact h rfl

/-- setting the fields of a range -/
theorem range_two {env : Env} {m m' : Mem} {n : Node} {ns : List Node} {up : List (List Node)} {q : Int} {v v' : Vars} {r : Res}
    (hm : AgreeM env m m') (h : Live m m' up) (ha : AgreeN n v v')
    (hg : Grow m m' (m.set (addr ((n :: ns) :: up)) v) (m'.set (addr ((n :: ns) :: up)) v'))
    (hr : r = .goto ⟨ns :: up, true, q⟩ ∨ r = .goto ⟨n.body :: (n :: ns) :: up, true, q⟩ ∨ (∃ t f, r = .call ⟨ns :: up, true, q⟩ t f) ∨
      ∃ t f, r = .call ⟨n.body :: (n :: ns) :: up, true, q⟩ t f) :
    Two env m m' (r, m.set (addr ((n :: ns) :: up)) v) (r, m'.set (addr ((n :: ns) :: up)) v') := by
  have h2 := h.grow hg
  have h3 := h2.cons (n := n) (ns := ns) (by simpa [Mem.set] using ha)
  refine ⟨rfl, set_two hm _ _ _, hg, ?_⟩
  rcases hr with rfl | rfl | ⟨t, f, rfl⟩ | ⟨t, f, rfl⟩
  · exact live_left h2
  · exact live_left h3
  · exact live_left h2
  · exact live_left h3

theorem initVars_p1 {v : Vars} {left : Bool} {p0 : Int} : (initVars v left p0 v.p1).p1 = v.p1 := by cases left <;> rfl

theorem execRangeN_two {env : Env} {m m' : Mem} {n : Node} {ns : List Node} {up : List (List Node)} {left : Bool} {q s : Int}
    (hn : isRange n = true) (hn1 : isRangeNM n = false) (hb : isBracket n = false) (hm : AgreeM env m m') (h : Live m m' up)
    (ha : left = false → AgreeN n (m.vars (addr ((n :: ns) :: up))) (m'.vars (addr ((n :: ns) :: up)))) :
    Two env m m' (execRangeN ns up n s n.body left q m) (execRangeN ns up n s n.body left q m') ∧
    Two env m m' (execNGRangeN ns up n s n.body left q m) (execNGRangeN ns up n s n.body left q m') := by
  have hv := initVarsN_agree (p0 := s) hn1 hb ha
  have e1 : ∀ v : Vars, (initVars v left s v.p1).p1 = v.p1 := fun v => initVars_p1
  have e2 : ∀ v : Vars, (initVars v left s v.p1).start = v.start := fun v => initVars_start ..
  unfold execRangeN execNGRangeN
  dsimp only
  obtain ⟨-, p, -⟩ := hv
  obtain ⟨p0, p1⟩ := p hn
  simp only [p0, p1]
  constructor
  · split
    · exact range_two hm h (initVarsN_agree hn1 hb ha) (grow_set (by rw [e2, e2]; exact id) (fun _ => p0) (by rw [e1, e1]; exact id) (fun _ => p1))
        (Or.inl rfl)
    · split
      · exact range_two hm h ⟨by simp [hb], fun _ => ⟨rfl, rfl⟩, by simp [hn1]⟩
          (grow_set (by simp only [e2]; exact id) (fun _ => rfl) (by simp only [e1]; exact id) (fun _ => rfl)) (Or.inr (Or.inr (Or.inr ⟨_, _, rfl⟩)))
      · exact range_two hm h ⟨by simp [hb], fun _ => ⟨rfl, rfl⟩, by simp [hn1]⟩
          (grow_set (by simp only [e2]; exact id) (fun _ => rfl) (by simp only [e1]; exact id) (fun _ => rfl)) (Or.inr (Or.inl rfl))
  · split
    · exact range_two hm h (initVarsN_agree hn1 hb ha) (grow_set (by rw [e2, e2]; exact id) (fun _ => p0) (by rw [e1, e1]; exact id) (fun _ => p1))
        (Or.inl rfl)
    · split
      · exact range_two hm h ⟨by simp [hb], fun _ => ⟨rfl, rfl⟩, by simp [hn1]⟩
          (grow_set (by simp only [e2]; exact id) (fun _ => rfl) (by simp only [e1]; exact id) (fun _ => rfl)) (Or.inr (Or.inr (Or.inl ⟨_, _, rfl⟩)))
      · exact range_two hm h ⟨by simp [hb], fun _ => ⟨rfl, rfl⟩, by simp [hn1]⟩
          (grow_set (by simp only [e2]; exact id) (fun _ => rfl) (by simp only [e1]; exact id) (fun _ => rfl)) (Or.inr (Or.inl rfl))

theorem execRangeNM_two {env : Env} {m m' : Mem} {n : Node} {ns : List Node} {up : List (List Node)} {left lzy : Bool} {q s e : Int}
    (hn : isRange n = true) (hn1 : isRangeNM n = true) (hb : isBracket n = false) (hm : AgreeM env m m') (h : Live m m' up)
    (ha : left = false → AgreeN n (m.vars (addr ((n :: ns) :: up))) (m'.vars (addr ((n :: ns) :: up)))) :
    Two env m m' (execRangeNM ns up n s e n.body lzy left q m) (execRangeNM ns up n s e n.body lzy left q m') := by
  have hv := initVars_agree (p0 := s) (p1 := e - s) hb ha
  have e2 : ∀ v : Vars, (initVars v left s (e - s)).start = v.start := fun v => initVars_start ..
  unfold execRangeNM
  dsimp only
  obtain ⟨-, p, pp⟩ := hv
  obtain ⟨p0, po⟩ := p hn
  have p1 := pp hn1
  simp only [p0, p1]
  have g : ∀ a b : Int, Grow m m'
      (m.set (addr ((n :: ns) :: up)) { initVars (m.vars (addr ((n :: ns) :: up))) left s (e - s) with p0 := a, p1 := b })
      (m'.set (addr ((n :: ns) :: up)) { initVars (m'.vars (addr ((n :: ns) :: up))) left s (e - s) with p0 := a, p1 := b }) :=
    fun a b => grow_set (by simp only [e2]; exact id) (fun _ => rfl) (fun _ => rfl) (fun _ => po)
  have agr : ∀ a b : Int, AgreeN n { initVars (m.vars (addr ((n :: ns) :: up))) left s (e - s) with p0 := a, p1 := b }
      { initVars (m'.vars (addr ((n :: ns) :: up))) left s (e - s) with p0 := a, p1 := b } :=
    fun a b => ⟨by simp [hb], fun _ => ⟨rfl, po⟩, fun _ => rfl⟩
  have eta : ∀ v : Vars, v = { v with p0 := v.p0, p1 := v.p1 } := fun v => rfl
  have g1 := g (initVars (m.vars (addr ((n :: ns) :: up))) left s (e - s)).p0
  have a1 := agr (initVars (m.vars (addr ((n :: ns) :: up))) left s (e - s)).p0
  split
  · split
    · refine range_two hm h (initVars_agree hb ha) ?_ (Or.inr (Or.inr (Or.inl ⟨_, _, rfl⟩)))
      exact grow_set (by rw [e2, e2]; exact id) (fun _ => p0) (fun _ => p1) (fun _ => po)
    · split
      · exact range_two hm h ⟨by simp [hb], fun _ => ⟨rfl, po⟩, fun _ => rfl⟩
          (grow_set (by simp only [e2]; exact id) (fun _ => rfl) (fun _ => rfl) (fun _ => po)) (Or.inr (Or.inr (Or.inl ⟨_, _, rfl⟩)))
      · exact range_two hm h ⟨by simp [hb], fun _ => ⟨rfl, po⟩, fun _ => rfl⟩
          (grow_set (by simp only [e2]; exact id) (fun _ => rfl) (fun _ => rfl) (fun _ => po)) (Or.inr (Or.inr (Or.inr ⟨_, _, rfl⟩)))
  · exact range_two hm h ⟨by simp [hb], fun _ => ⟨rfl, po⟩, fun _ => rfl⟩
          (grow_set (by simp only [e2]; exact id) (fun _ => rfl) (fun _ => rfl) (fun _ => po)) (Or.inr (Or.inl rfl))

theorem agree_plain {n : Node} {v v' : Vars} (h1 : isBracket n = false) (h2 : isRange n = false) (h3 : isRangeNM n = false) : AgreeN n v v' :=
  ⟨by simp [h1], by simp [h2], by simp [h3]⟩

theorem execNode_two {env : Env} {n : Node} {ns : List Node} {up : List (List Node)} {left : Bool} {q : Int} {m m' : Mem}
    (hm : AgreeM env m m') (h : Live m m' up)
    (ha : left = false → AgreeN n (m.vars (addr ((n :: ns) :: up))) (m'.vars (addr ((n :: ns) :: up)))) :
    Two env m m' (execNode env n ns up left q m) (execNode env n ns up left q m') := by
  have same : ∀ r, ResLive m m' r → Two env m m' (r, m) (r, m') := fun r h => ⟨rfl, hm, Grow.refl _ _, h⟩
  have next : Two env m m' (.goto ⟨ns :: up, true, q⟩, m) (.goto ⟨ns :: up, true, q⟩, m') := same _ (live_left h)
  have inBody : isBracket n = false → isRange n = false → isRangeNM n = false → ∀ (b : List Node) t f q',
      Two env m m' (.call ⟨b :: (n :: ns) :: up, true, q'⟩ t f, m) (.call ⟨b :: (n :: ns) :: up, true, q'⟩ t f, m') :=
    fun h1 h2 h3 b t f q' => same _ (live_left (h.cons (agree_plain h1 h2 h3)))
  cases n with
  | empty => exact next
  | msym k =>
    refine ⟨rfl, mark_two hm q k, Grow.of_vars (vars_mark _ _ _) (vars_mark _ _ _), ?_⟩
    show ResLive (markMeta m q k) (markMeta m' q k) (tested ns up (checkMeta env k q))
    have g : Grow m m' (markMeta m q k) (markMeta m' q k) := Grow.of_vars (vars_mark _ _ _) (vars_mark _ _ _)
    cases checkMeta env k q with
    | no => trivial
    | oob => trivial
    | yes q' => exact live_left (h.grow g)
  | symb c => exact tested_two _ hm h
  | word w => exact tested_two _ hm h
  | enum cls => exact tested_two _ hm h
  | nenum cls => exact tested_two _ hm h
  | brackets idx body =>
    cases left with
    | true =>
      have hg : Grow m m' (m.set (addr ((.brackets idx body :: ns) :: up)) { m.vars (addr ((.brackets idx body :: ns) :: up)) with start := q })
          (m'.set (addr ((.brackets idx body :: ns) :: up)) { m'.vars (addr ((.brackets idx body :: ns) :: up)) with start := q }) :=
        grow_set (fun _ => rfl) id id id
      refine ⟨rfl, set_two hm _ _ _, hg, live_left ((h.grow hg).cons ?_)⟩
      refine ⟨fun _ => ?_, by simp [isRange], by simp [isRangeNM]⟩
      simp [Mem.set]
    | false =>
      have hs := (ha rfl).1 rfl
      cases idx with
      | none => exact next
      | some i =>
        refine ⟨rfl, ?_, Grow.of_vars rfl rfl, live_left (h.grow (Grow.of_vars rfl rfl))⟩
        show AgreeM env (m.close i _ q) (m'.close i _ q)
        rw [hs]
        exact close_two hm i _ q
  | named idx body =>
    cases left with
    | true =>
      have hg : Grow m m' (m.set (addr ((.named idx body :: ns) :: up)) { m.vars (addr ((.named idx body :: ns) :: up)) with start := q })
          (m'.set (addr ((.named idx body :: ns) :: up)) { m'.vars (addr ((.named idx body :: ns) :: up)) with start := q }) :=
        grow_set (fun _ => rfl) id id id
      refine ⟨rfl, set_two hm _ _ _, hg, live_left ((h.grow hg).cons ?_)⟩
      refine ⟨fun _ => ?_, by simp [isRange], by simp [isRangeNM]⟩
      simp [Mem.set]
    | false =>
      have hs := (ha rfl).1 rfl
      cases idx with
      | none => exact next
      | some i =>
        refine ⟨rfl, ?_, Grow.of_vars rfl rfl, live_left (h.grow (Grow.of_vars rfl rfl))⟩
        show AgreeM env (m.closeNamed i _ q) (m'.closeNamed i _ q)
        rw [hs]
        exact closeNamed_two hm i _ q
  | bkTrace k => exact tested_two _ hm h
  | bkTraceN k => exact tested_two _ hm h
  | bkTraceName k => exact tested_two _ hm h
  | bkTraceNName k => exact tested_two _ hm h
  | bkBrack k =>
    show Two env m m' (tested ns up (checkRef env env.cMatch m.m.s m.m.e k q), m) (tested ns up (checkRef env env.cMatch m'.m.s m'.m.e k q), m')
    rw [ref_two env _ _ _ _ _ k q hm.g.s hm.g.e]
    exact tested_two _ hm h
  | bkBrackName k =>
    show Two env m m' (tested ns up (checkRef env env.cnMatch m.m.ns m.m.ne k q), m)
      (tested ns up (checkRef env env.cnMatch m'.m.ns m'.m.ne k q), m')
    rw [ref_two env _ _ _ _ _ k q hm.g.ns hm.g.ne]
    exact tested_two _ hm h
  | ahead body => cases left with
    | true => exact inBody rfl rfl rfl _ _ _ q
    | false => exact same _ trivial
  | nahead body => cases left with
    | true => exact inBody rfl rfl rfl _ _ _ q
    | false => exact same _ trivial
  | behind k body => cases left with
    | true =>
      show Two env m m' (if q - k < 0 then _ else _) (if q - k < 0 then _ else _)
      split
      · exact same _ trivial
      · exact inBody rfl rfl rfl _ _ _ _
    | false => exact same _ trivial
  | nbehind k body => cases left with
    | true =>
      show Two env m m' (if q - k ≥ 0 then _ else _) (if q - k ≥ 0 then _ else _)
      split
      · exact inBody rfl rfl rfl _ _ _ _
      · exact next
    | false => exact same _ trivial
  | or body => cases left with
    | true => exact inBody rfl rfl rfl _ _ _ q
    | false => exact same _ (by simpa [ResLive, CfgLive] using h)
  | rangeN s body => exact (execRangeN_two rfl rfl rfl hm h ha).1
  | rangeNM s e body => exact execRangeNM_two rfl rfl rfl hm h ha
  | ngRangeN s body => exact (execRangeN_two rfl rfl rfl hm h ha).2
  | ngRangeNM s e body => exact execRangeNM_two rfl rfl rfl hm h ha

theorem exec_two {env : Env} {c : Cfg} {m m' : Mem} (hm : AgreeM env m m') (hc : CfgLive m m' c) : Two env m m' (exec env c m) (exec env c m') := by
  obtain ⟨pos, left, q⟩ := c
  match pos with
  | [] => exact ⟨rfl, hm, Grow.refl _ _, trivial⟩
  | [] :: up =>
    refine ⟨rfl, hm, Grow.refl _ _, ?_⟩
    have : Live m m' up := by
      cases left with
      | true => simpa [CfgLive] using hc
      | false => exact Live.tail (by simpa [CfgLive] using hc)
    simpa [exec, ResLive, CfgLive] using this
  | (n :: ns) :: up =>
    have hup : Live m m' up := by
      cases left with
      | true => simpa [CfgLive] using hc
      | false => exact Live.tail (by simpa [CfgLive] using hc)
    refine execNode_two hm hup fun hl => ?_
    have hl : left = false := hl
    subst hl
    have hc : Live m m' ((n :: ns) :: up) := by simpa [CfgLive] using hc
    exact hc _ _ _ (List.suffix_refl _)

/-- after a call the node itself is live: a range has just set its fields, other nodes that call have none -/
theorem call_live {env : Env} {c c' : Cfg} {m m' : Mem} {t f : Act} (hm : AgreeM env m m') (hc : CfgLive m m' c)
    (h : (exec env c m).1 = .call c' t f) : Live (exec env c m).2 (exec env c m').2 c.pos := by
  have tw := exec_two hm hc
  obtain ⟨pos, left, q⟩ := c
  match pos with
  | [] => simp [exec] at h
  | [] :: up => simp [exec] at h
  | (n :: ns) :: up =>
    have hup : Live m m' up := by
      cases left with
      | true => simpa [CfgLive] using hc
      | false => exact Live.tail (by simpa [CfgLive] using hc)
    refine (hup.grow tw.grow).cons ?_
    have hb : isBracket n = false := by
      obtain ⟨n', ns', up', h1, h2⟩ := call_not_bracket (env := env) (c := ⟨(n :: ns) :: up, left, q⟩) (m := m) (Prod.ext h rfl)
      cases h1; exact h2
    have ha : left = false → AgreeN n (m.vars (addr ((n :: ns) :: up))) (m'.vars (addr ((n :: ns) :: up))) := by
      intro hl
      subst hl
      have hc : Live m m' ((n :: ns) :: up) := by simpa [CfgLive] using hc
      exact hc _ _ _ (List.suffix_refl _)
    clear h tw
    cases n with
    | rangeN s body =>
      show AgreeN _ ((execRangeN ns up (.rangeN s body) s body left q m).2.vars _) ((execRangeN ns up (.rangeN s body) s body left q m').2.vars _)
      have hv := initVarsN_agree (n := .rangeN s body) (p0 := s) rfl rfl ha
      obtain ⟨-, p, -⟩ := hv
      obtain ⟨p0, p1⟩ := p rfl
      unfold execRangeN
      dsimp only
      simp only [p0, p1]
      split
      · simp only [Mem.set, if_true]; exact initVarsN_agree rfl rfl ha
      · split <;> (simp only [Mem.set, if_true]; exact ⟨by simp [isBracket], fun _ => ⟨by first | rfl | exact p0, rfl⟩, by simp [isRangeNM]⟩)
    | ngRangeN s body =>
      show AgreeN _ ((execNGRangeN ns up (.ngRangeN s body) s body left q m).2.vars _)
        ((execNGRangeN ns up (.ngRangeN s body) s body left q m').2.vars _)
      have hv := initVarsN_agree (n := .ngRangeN s body) (p0 := s) rfl rfl ha
      obtain ⟨-, p, -⟩ := hv
      obtain ⟨p0, p1⟩ := p rfl
      unfold execNGRangeN
      dsimp only
      simp only [p0, p1]
      split
      · simp only [Mem.set, if_true]; exact initVarsN_agree rfl rfl ha
      · split <;> (simp only [Mem.set, if_true]; exact ⟨by simp [isBracket], fun _ => ⟨by first | rfl | exact p0, rfl⟩, by simp [isRangeNM]⟩)
    | rangeNM s e body =>
      show AgreeN _ ((execRangeNM ns up (.rangeNM s e body) s e body false left q m).2.vars _)
        ((execRangeNM ns up (.rangeNM s e body) s e body false left q m').2.vars _)
      have hv := initVars_agree (n := .rangeNM s e body) (p0 := s) (p1 := e - s) rfl ha
      obtain ⟨-, p, pp⟩ := hv
      obtain ⟨p0, po⟩ := p rfl
      have p1 := pp rfl
      unfold execRangeNM
      dsimp only
      simp only [p0, p1]
      repeat' split
      all_goals simp only [Mem.set, if_true]
      all_goals exact ⟨by simp [isBracket], fun _ => ⟨by first | rfl | exact p0, by first | rfl | exact po⟩, fun _ => by first | rfl | exact p1⟩
    | ngRangeNM s e body =>
      show AgreeN _ ((execRangeNM ns up (.ngRangeNM s e body) s e body true left q m).2.vars _)
        ((execRangeNM ns up (.ngRangeNM s e body) s e body true left q m').2.vars _)
      have hv := initVars_agree (n := .ngRangeNM s e body) (p0 := s) (p1 := e - s) rfl ha
      obtain ⟨-, p, pp⟩ := hv
      obtain ⟨p0, po⟩ := p rfl
      have p1 := pp rfl
      unfold execRangeNM
      dsimp only
      simp only [p0, p1]
      repeat' split
      all_goals simp only [Mem.set, if_true]
      all_goals exact ⟨by simp [isBracket], fun _ => ⟨by first | rfl | exact p0, by first | rfl | exact po⟩, fun _ => by first | rfl | exact p1⟩
    | brackets i b => cases hb
    | named i b => cases hb
    | _ => exact agree_plain rfl rfl rfl

theorem resume_two {env : Env} {a : Act} {c : Cfg} {m m' : Mem} (hm : AgreeM env m m') (hc : Live m m' c.pos)
    (hr : ∀ n ns up, c.pos = (n :: ns) :: up → (a = .ngRangeN2 → isRange n = true) ∧ (a = .rangeNM3 ∨ a = .ngRangeNM3 → isRangeNM n = true)) :
    Two env m m' (resume a c m) (resume a c m') := by
  obtain ⟨pos, left, q⟩ := c
  have same : ∀ r, ResLive m m' r → Two env m m' (r, m) (r, m') := fun r h => ⟨rfl, hm, Grow.refl _ _, h⟩
  match pos with
  | [] => exact same _ trivial
  | [] :: up => exact same _ trivial
  | (n :: ns) :: up =>
    have hc : Live m m' ((n :: ns) :: up) := hc
    have hn := hc _ _ _ (List.suffix_refl _)
    have hr := hr n ns up rfl
    cases a with
    | no => exact same _ trivial
    | yes => exact same _ trivial
    | brk => exact same _ (live_left hc.tail)
    | rangeN2 => exact same _ (live_left hc.tail)
    | rangeNM2 => exact same _ (live_left hc.tail)
    | ngRangeNM2 => exact same _ (live_left hc)
    | rangeNM3 =>
      exact ⟨rfl, set_two hm _ _ _, grow_set id id (fun h => by simp only [h]) id, trivial⟩
    | ngRangeNM3 =>
      exact ⟨rfl, set_two hm _ _ _, grow_set id id (fun h => by simp only [h]) id, trivial⟩
    | ngRangeN2 =>
      have h0 := (hn.2.1 (hr.1 rfl)).1
      simp only [resume, h0]
      split
      · exact same _ (live_left hc)
      · have hg := grow_set (m := m) (m' := m') (a := addr ((n :: ns) :: up))
          (v := { m.vars (addr ((n :: ns) :: up)) with p0 := (m'.vars (addr ((n :: ns) :: up))).p0 - 1 })
          (v' := { m'.vars (addr ((n :: ns) :: up)) with p0 := (m'.vars (addr ((n :: ns) :: up))).p0 - 1 }) id (fun _ => rfl) id id
        exact ⟨rfl, set_two hm _ _ _, hg, live_left (hc.grow hg)⟩

/-- which actions a node may be put on the stack with -/
def ActFor (n : Node) (a : Act) : Prop := (a = .ngRangeN2 → isRange n = true) ∧ (a = .rangeNM3 ∨ a = .ngRangeNM3 → isRangeNM n = true) ∧
  (a = .rangeNM2 ∨ a = .ngRangeNM2 → isRangeNM n = true)

def ElemFor (c : Cfg) (a : Act) : Prop := ∀ n ns up, c.pos = (n :: ns) :: up → ActFor n a

theorem tested_not_call (ns : List Node) (up : List (List Node)) (ck : Chk) (c : Cfg) (t f : Act) : tested ns up ck ≠ .call c t f := by
  cases ck <;> simp [tested]

theorem exec_acts {env : Env} {c c' : Cfg} {m : Mem} {t f : Act} (h : (exec env c m).1 = .call c' t f) : ElemFor c t ∧ ElemFor c f := by
  obtain ⟨pos, left, q⟩ := c
  match pos with
  | [] => simp [exec] at h
  | [] :: up => simp [exec] at h
  | (n :: ns) :: up =>
    have key : ActFor n t ∧ ActFor n f := by
      cases n with
      | rangeN s body =>
        have h : (execRangeN ns up (.rangeN s body) s body left q m).1 = _ := h
        unfold execRangeN at h; dsimp only at h
        repeat' split at h
        all_goals cases h
        all_goals simp [ActFor, isRange, isRangeNM]
      | ngRangeN s body =>
        have h : (execNGRangeN ns up (.ngRangeN s body) s body left q m).1 = _ := h
        unfold execNGRangeN at h; dsimp only at h
        repeat' split at h
        all_goals cases h
        all_goals simp [ActFor, isRange, isRangeNM]
      | rangeNM s e body =>
        have h : (execRangeNM ns up (.rangeNM s e body) s e body false left q m).1 = _ := h
        unfold execRangeNM at h; dsimp only at h
        repeat' split at h
        all_goals cases h
        all_goals simp [ActFor, isRange, isRangeNM]
      | ngRangeNM s e body =>
        have h : (execRangeNM ns up (.ngRangeNM s e body) s e body true left q m).1 = _ := h
        unfold execRangeNM at h; dsimp only at h
        repeat' split at h
        all_goals cases h
        all_goals simp [ActFor, isRange, isRangeNM]
      | brackets i b =>
        exfalso
        simp only [exec, execNode] at h
        cases left
        · cases i <;> simp at h
        · simp at h
      | named i b =>
        exfalso
        simp only [exec, execNode] at h
        cases left
        · cases i <;> simp at h
        · simp at h
      | ahead b => cases left <;> cases h; simp [ActFor]
      | nahead b => cases left <;> cases h; simp [ActFor]
      | or b => cases left <;> cases h; simp [ActFor]
      | behind k b =>
        cases left with
        | false => cases h
        | true =>
          have h : (if q - k < 0 then _ else _ : Res × Mem).1 = _ := h
          split at h
          · cases h
          · cases h; simp [ActFor]
      | nbehind k b =>
        cases left with
        | false => cases h
        | true =>
          have h : (if q - k ≥ 0 then _ else _ : Res × Mem).1 = _ := h
          split at h
          · cases h; simp [ActFor]
          · cases h
      | empty => cases h
      | _ =>
        exact absurd h (tested_not_call _ _ _ _ _ _)
    exact ⟨fun n' ns' up' h => by cases h; exact key.1, fun n' ns' up' h => by cases h; exact key.2⟩

theorem resume_acts {a : Act} {c c' : Cfg} {m : Mem} {t f : Act} (ha : ElemFor c a) (h : (resume a c m).1 = .call c' t f) :
    ElemFor c t ∧ ElemFor c f := by
  obtain ⟨pos, left, q⟩ := c
  match pos with
  | [] => simp [resume] at h
  | [] :: up => simp [resume] at h
  | (n :: ns) :: up =>
    have ha := ha n ns up rfl
    have key : ActFor n t ∧ ActFor n f := by
      cases a <;> simp only [resume] at h <;> cases h
      · simp [ActFor]
      · have := ha.2.2; simp_all [ActFor]
      · have := ha.2.2; simp_all [ActFor]
    exact ⟨fun n' ns' up' h => by cases h; exact key.1, fun n' ns' up' h => by cases h; exact key.2⟩

/-- the relation between two runs -/
structure Sim (env : Env) (st st' : State) : Prop where
  c : st.c = st'.c
  act : st.act = st'.act
  stack : st.stack = st'.stack
  mem : AgreeM env st.m st'.m
  cur : match st.act with
    | none => CfgLive st.m st'.m st.c
    | some a => Live st.m st'.m st.c.pos ∧ ElemFor st.c a
  elems : ∀ x ∈ st.stack, Live st.m st'.m x.c.pos ∧ ElemFor x.c x.t ∧ ElemFor x.c x.f

def SimOut (env : Env) : State ⊕ (End × Mem) → State ⊕ (End × Mem) → Prop
  | .inl st, .inl st' => Sim env st st'
  | .inr r, .inr r' => r.1 = r'.1 ∧ AgreeM env r.2 r'.2
  | _, _ => False

theorem pop_sim {env : Env} {b : Bool} {m m' : Mem} {s : List Elem} (hm : AgreeM env m m')
    (hs : ∀ x ∈ s, Live m m' x.c.pos ∧ ElemFor x.c x.t ∧ ElemFor x.c x.f) : SimOut env (pop b m s) (pop b m' s) := by
  cases s with
  | nil => exact ⟨rfl, hm⟩
  | cons x xs =>
    obtain ⟨h1, h2, h3⟩ := hs x (by simp)
    refine ⟨rfl, rfl, rfl, hm, ⟨h1, ?_⟩, fun y hy => hs y (by simp [hy])⟩
    cases b
    · exact h3
    · exact h2

theorem step_sim {env : Env} {st st' : State} (h : Sim env st st') : SimOut env (step env st) (step env st') := by
  obtain ⟨c, act, m, stack⟩ := st
  obtain ⟨c', act', m', stack'⟩ := st'
  obtain ⟨h1, h2, h3, hm, hc, hs⟩ := h
  dsimp only at h1 h2 h3 hm hc hs
  subst h1 h2 h3
  have key : ∀ r r' : Res × Mem, Two env m m' r r' →
      (∀ c' t f, r.1 = .call c' t f → Live r.2 r'.2 c.pos ∧ ElemFor c t ∧ ElemFor c f) → SimOut env (after c stack r) (after c stack r') := by
    intro r r' ht hcall
    obtain ⟨hres, hmem, hgrow, hlive⟩ := ht
    obtain ⟨r1, m1⟩ := r
    obtain ⟨r1', m1'⟩ := r'
    dsimp only at hres hmem hgrow hlive hcall
    subst hres
    have hs' : ∀ x ∈ stack, Live m1 m1' x.c.pos ∧ ElemFor x.c x.t ∧ ElemFor x.c x.f := fun x hx => ⟨(hs x hx).1.grow hgrow, (hs x hx).2⟩
    cases r1 with
    | fail => exact pop_sim hmem hs'
    | succ => exact pop_sim hmem hs'
    | goto c1 => exact ⟨rfl, rfl, rfl, hmem, hlive, hs'⟩
    | call c1 t f =>
      refine ⟨rfl, rfl, rfl, hmem, hlive, fun x hx => ?_⟩
      rcases List.mem_cons.mp hx with rfl | hx
      · exact hcall _ _ _ rfl
      · exact hs' x hx
    | oob => exact ⟨rfl, hmem⟩
  rw [step_eq, step_eq]
  cases act with
  | none => exact key _ _ (exec_two hm hc) fun c' t f h => ⟨call_live hm hc h, exec_acts h⟩
  | some a =>
    have ht := resume_two hm hc.1 fun n ns up h => ⟨(hc.2 n ns up h).1, (hc.2 n ns up h).2.1⟩
    exact key _ _ ht fun c' t f h => ⟨hc.1.grow ht.grow, resume_acts hc.2 h⟩

/-- results of `run` agree -/
def SameEnd (env : Env) : Option (End × Mem) → Option (End × Mem) → Prop
  | none, none => True
  | some r, some r' => r.1 = r'.1 ∧ AgreeM env r.2 r'.2
  | _, _ => False

theorem run_sim {env : Env} (fuel : Nat) : ∀ {st st' : State}, Sim env st st' → SameEnd env (run env fuel st) (run env fuel st') := by
  induction fuel with
  | zero => intro st st' _; trivial
  | succ fuel ih =>
    intro st st' h
    have hs := step_sim h
    rw [run, run]
    cases h1 : step env st with
    | inl a =>
      cases h2 : step env st' with
      | inl b => rw [h1, h2] at hs; exact ih hs
      | inr b => rw [h1, h2] at hs; exact absurd hs id
    | inr a =>
      cases h2 : step env st' with
      | inl b => rw [h1, h2] at hs; exact absurd hs id
      | inr b => rw [h1, h2] at hs; exact hs

theorem sim_start {env : Env} {m m' : Mem} (hm : AgreeM env m m') (x : List Node) (pos : Int) :
    Sim env ⟨⟨[x], true, pos⟩, none, m, []⟩ ⟨⟨[x], true, pos⟩, none, m', []⟩ :=
  ⟨rfl, rfl, rfl, hm, live_left (by intro n ns up h; simp at h), by simp⟩

/-! ## Calls -/

/-- two results of `parse` are the same for the caller: the returned value, the groups in use, and the object's flags -/
structure SameOut (x : Expr) (o o' : Out) : Prop where
  res : o.res = o'.res
  s : ∀ i, i < x.cMatch → o.m.s i = o'.m.s i
  e : ∀ i, i < x.cMatch → o.m.e i = o'.m.e i
  ns : ∀ i, i < x.cnMatch → o.m.ns i = o'.m.ns i
  ne : ∀ i, i < x.cnMatch → o.m.ne i = o'.m.ne i

def SameCall (x : Expr) : Option Out → Option Out → Prop
  | none, none => True
  | some o, some o' => SameOut x o o'
  | _, _ => False

theorem tries_sim {chars : Chars} {x : Expr} {a : Args} (root : List Node) (fuel : Nat) (keep keep' : Bool) (n : Nat) :
    ∀ (pos : Int) (m m' : Mem), AgreeM (envOf chars x a) m m' →
      SameCall x (tries (envOf chars x a) [root] fuel keep n pos m) (tries (envOf chars x a) [root] fuel keep' n pos m') := by
  have fin : ∀ {r : End} {m1 m1' : Mem}, AgreeM (envOf chars x a) m1 m1' → SameOut x (outOf r m1 keep) (outOf r m1' keep') :=
    fun hm => ⟨rfl, hm.g.s, hm.g.e, hm.g.ns, hm.g.ne⟩
  induction n with
  | zero =>
    intro pos m m' hm
    have hr := run_sim fuel (sim_start hm root pos)
    rw [tries.eq_def, tries.eq_def]; dsimp only
    cases h1 : run (envOf chars x a) fuel ⟨⟨[root], true, pos⟩, none, m, []⟩ with
    | none =>
      cases h2 : run (envOf chars x a) fuel ⟨⟨[root], true, pos⟩, none, m', []⟩ with
      | none => trivial
      | some r => rw [h1, h2] at hr; exact absurd hr id
    | some r =>
      cases h2 : run (envOf chars x a) fuel ⟨⟨[root], true, pos⟩, none, m', []⟩ with
      | none => rw [h1, h2] at hr; exact absurd hr id
      | some r' =>
        rw [h1, h2] at hr
        obtain ⟨e, m1⟩ := r
        obtain ⟨e', m1'⟩ := r'
        obtain ⟨h3, h4⟩ := hr
        dsimp only at h3 h4
        subst h3
        cases e with
        | oob => exact fin h4
        | ret v => cases v <;> exact fin h4
  | succ n ih =>
    intro pos m m' hm
    have hr := run_sim fuel (sim_start hm root pos)
    rw [tries.eq_def, tries.eq_def]; dsimp only
    cases h1 : run (envOf chars x a) fuel ⟨⟨[root], true, pos⟩, none, m, []⟩ with
    | none =>
      cases h2 : run (envOf chars x a) fuel ⟨⟨[root], true, pos⟩, none, m', []⟩ with
      | none => trivial
      | some r => rw [h1, h2] at hr; exact absurd hr id
    | some r =>
      cases h2 : run (envOf chars x a) fuel ⟨⟨[root], true, pos⟩, none, m', []⟩ with
      | none => rw [h1, h2] at hr; exact absurd hr id
      | some r' =>
        rw [h1, h2] at hr
        obtain ⟨e, m1⟩ := r
        obtain ⟨e', m1'⟩ := r'
        obtain ⟨h3, h4⟩ := hr
        dsimp only at h3 h4
        subst h3
        cases e with
        | oob => exact fin h4
        | ret v => cases v with
          | true => exact fin h4
          | false => exact ih (pos + 1) m1 m1' h4

/-- what the caller sees of a call: whether it returned (within that many rounds), the returned value and, after success, the groups -/
def SameResult (x : Expr) : Option Out → Option Out → Prop
  | none, none => True
  | some o, some o' => o.res = o'.res ∧ (o.res = .ret true →
      (∀ i, i < x.cMatch → o.m.s i = o'.m.s i ∧ o.m.e i = o'.m.e i) ∧ (∀ i, i < x.cnMatch → o.m.ns i = o'.m.ns i ∧ o.m.ne i = o'.m.ne i))
  | _, _ => False

theorem SameCall.result {x : Expr} {u u' : Option Out} (h : SameCall x u u') : SameResult x u u' := by
  cases u with
  | none => cases u' with
    | none => trivial
    | some _ => exact absurd h id
  | some o => cases u' with
    | none => exact absurd h id
    | some o' => exact ⟨h.res, fun _ => ⟨fun i hi => ⟨h.s i hi, h.e i hi⟩, fun i hi => ⟨h.ns i hi, h.ne i hi⟩⟩⟩

/-- The result of `parse` depends on the object only through the two marks and `positionMoves`, and not at all on what the caller's
structure held before. -/
theorem parse_sim (chars : Chars) (x : Expr) (fuel : Nat) (o o' : Obj) (a : Args) (mt mt' : Matches) (h1 : o.startChange = o'.startChange)
    (h2 : o.endChange = o'.endChange) (h3 : o.moves = o'.moves) :
    SameResult x (parse chars x fuel o a mt) (parse chars x fuel o' a mt') := by
  unfold parse
  dsimp only
  rw [h3]
  have hm : AgreeM (envOf chars x a) ⟨o.vars, clearMatches x mt, o.startChange, o.endChange⟩
      ⟨o'.vars, clearMatches x mt', o'.startChange, o'.endChange⟩ := by
    refine ⟨⟨fun i hi => ?_, fun i hi => ?_, fun i hi => ?_, fun i hi => ?_⟩, h1, h2⟩ <;>
    · simp only [envOf] at hi
      simp [clearMatches, hi]
  split
  · exact ⟨rfl, by simp⟩
  · split
    · exact (tries_sim _ fuel _ _ _ _ _ _ hm).result
    · cases quickCheck (envOf chars x a) (firstOf x.body) a.pos with
      | none => exact ⟨rfl, by simp [outOf]⟩
      | some b =>
        cases b with
        | false => exact ⟨rfl, by simp⟩
        | true => exact (tries_sim _ fuel _ _ _ _ _ _ hm).result

/-! ## Positions stay in the tree -/

/-- a property of chains that their tails and the bodies in them inherit -/
structure Inherited (P : List Node → Prop) : Prop where
  tail : ∀ n ns, P (n :: ns) → P ns
  body : ∀ n ns, P (n :: ns) → P n.body

def AllIn (P : List Node → Prop) (pos : List (List Node)) : Prop := ∀ l ∈ pos, P l

structure StIn (P : List Node → Prop) (st : State) : Prop where
  cur : AllIn P st.c.pos
  stack : ∀ x ∈ st.stack, AllIn P x.c.pos

def OutIn (P : List Node → Prop) : State ⊕ (End × Mem) → Prop
  | .inl st => StIn P st
  | .inr _ => True

def ResIn (P : List Node → Prop) : Res → Prop
  | .goto c => AllIn P c.pos
  | .call c _ _ => AllIn P c.pos
  | _ => True

theorem pop_in {P : List Node → Prop} {b : Bool} {m : Mem} {s : List Elem} (hs : ∀ x ∈ s, AllIn P x.c.pos) : OutIn P (pop b m s) := by
  cases s with
  | nil => trivial
  | cons x xs => exact ⟨hs x (by simp), fun y hy => hs y (by simp [hy])⟩

theorem AllIn.cons {P : List Node → Prop} {l : List Node} {up : List (List Node)} (h1 : P l) (h2 : AllIn P up) : AllIn P (l :: up) := by
  intro x hx
  rcases List.mem_cons.mp hx with rfl | hx
  · exact h1
  · exact h2 x hx

theorem exec_in {P : List Node → Prop} (hP : Inherited P) {env : Env} {c : Cfg} {m : Mem} (h : AllIn P c.pos) : ResIn P (exec env c m).1 := by
  obtain ⟨pos, left, q⟩ := c
  match pos with
  | [] => trivial
  | [] :: up => exact fun l hl => h l (by simp [hl])
  | (n :: ns) :: up =>
    have hn : P (n :: ns) := h _ (by simp)
    have hup : AllIn P up := fun l hl => h l (by simp [hl])
    have hns : AllIn P (ns :: up) := hup.cons (hP.tail _ _ hn)
    have hb : AllIn P (n.body :: (n :: ns) :: up) := (hup.cons hn).cons (hP.body _ _ hn)
    have sh := execNode_shape env n ns up left q m
    show ResIn P (execNode env n ns up left q m).1
    cases hr : (execNode env n ns up left q m).1 with
    | fail => trivial
    | succ => trivial
    | oob => trivial
    | goto c =>
      rw [hr] at sh
      rcases sh with ⟨⟨q', rfl⟩, -⟩ | ⟨⟨q', rfl⟩, -⟩ | ⟨⟨q', rfl⟩, -⟩
      · exact hns
      · exact hb
      · exact hup
    | call c t f =>
      rw [hr] at sh
      rcases sh.2.2 with ⟨⟨q', rfl⟩, -⟩ | ⟨⟨q', rfl⟩, -⟩
      · exact hns
      · exact hb

theorem resume_in {P : List Node → Prop} (hP : Inherited P) {a : Act} {c : Cfg} {m : Mem} (h : AllIn P c.pos) : ResIn P (resume a c m).1 := by
  obtain ⟨pos, left, q⟩ := c
  match pos with
  | [] => trivial
  | [] :: up => trivial
  | (n :: ns) :: up =>
    have hn : P (n :: ns) := h _ (by simp)
    have hup : AllIn P up := fun l hl => h l (by simp [hl])
    have hns : AllIn P (ns :: up) := hup.cons (hP.tail _ _ hn)
    have hb : AllIn P (n.body :: (n :: ns) :: up) := (hup.cons hn).cons (hP.body _ _ hn)
    cases a <;> first | trivial | exact hns | exact hb

theorem step_in {P : List Node → Prop} (hP : Inherited P) {env : Env} {st : State} (h : StIn P st) : OutIn P (step env st) := by
  obtain ⟨c, act, m, stack⟩ := st
  obtain ⟨hc, hs⟩ := h
  rw [step_eq]
  have key : ∀ r : Res × Mem, ResIn P r.1 → OutIn P (after c stack r) := by
    intro r hr
    obtain ⟨r1, r2⟩ := r
    cases r1 with
    | fail => exact pop_in hs
    | succ => exact pop_in hs
    | oob => trivial
    | goto c' => exact ⟨hr, hs⟩
    | call c' t f =>
      refine ⟨hr, fun x hx => ?_⟩
      rcases List.mem_cons.mp hx with rfl | hx
      · exact hc
      · exact hs x hx
  cases act with
  | none => exact key _ (exec_in hP hc)
  | some a => exact key _ (resume_in hP hc)

mutual
/-- no `\m`, `\M` anywhere -/
def noMark : List Node → Bool
  | [] => true
  | n :: ns => noMarkN n && noMark ns
def noMarkN : Node → Bool
  | .msym k => k != .start && k != .stop
  | .brackets _ b | .named _ b | .ahead b | .nahead b | .behind _ b | .nbehind _ b | .or b | .rangeN _ b | .rangeNM _ _ b | .ngRangeN _ b
  | .ngRangeNM _ _ b => noMark b
  | _ => true
end

theorem noMark_inherited : Inherited fun l => noMark l = true := by
  refine ⟨fun n ns h => ?_, fun n ns h => ?_⟩ <;> rw [noMark, Bool.and_eq_true] at h
  · exact h.2
  · obtain ⟨h, -⟩ := h
    cases n <;> first
      | rfl
      | (rw [noMarkN] at h; exact h)

/-- a round changes the marks only at `\m`, `\M` -/
theorem execNode_marks {env : Env} {n : Node} {ns : List Node} {up : List (List Node)} {left : Bool} {q : Int} {m : Mem} (h : noMarkN n = true) :
    (execNode env n ns up left q m).2.startChange = m.startChange ∧ (execNode env n ns up left q m).2.endChange = m.endChange := by
  cases n with
  | msym k =>
    show (markMeta m q k).startChange = _ ∧ (markMeta m q k).endChange = _
    rw [noMarkN] at h
    cases k <;> first | exact ⟨rfl, rfl⟩ | exact absurd h (by decide)
  | brackets idx body => cases left <;> cases idx <;> exact ⟨rfl, rfl⟩
  | named idx body => cases left <;> cases idx <;> exact ⟨rfl, rfl⟩
  | ahead body => cases left <;> exact ⟨rfl, rfl⟩
  | nahead body => cases left <;> exact ⟨rfl, rfl⟩
  | behind k body =>
    cases left with
    | false => exact ⟨rfl, rfl⟩
    | true =>
      show (if q - k < 0 then _ else _ : Res × Mem).2.startChange = _ ∧ (if q - k < 0 then _ else _ : Res × Mem).2.endChange = _
      split <;> exact ⟨rfl, rfl⟩
  | nbehind k body =>
    cases left with
    | false => exact ⟨rfl, rfl⟩
    | true =>
      show (if q - k ≥ 0 then _ else _ : Res × Mem).2.startChange = _ ∧ (if q - k ≥ 0 then _ else _ : Res × Mem).2.endChange = _
      split <;> exact ⟨rfl, rfl⟩
  | or body => cases left <;> exact ⟨rfl, rfl⟩
  | rangeN s body =>
    simp only [execNode, execRangeN]
    repeat' split
    all_goals exact ⟨rfl, rfl⟩
  | rangeNM s e body =>
    simp only [execNode, execRangeNM]
    repeat' split
    all_goals exact ⟨rfl, rfl⟩
  | ngRangeN s body =>
    simp only [execNode, execNGRangeN]
    repeat' split
    all_goals exact ⟨rfl, rfl⟩
  | ngRangeNM s e body =>
    simp only [execNode, execRangeNM]
    repeat' split
    all_goals exact ⟨rfl, rfl⟩
  | _ => exact ⟨rfl, rfl⟩

theorem resume_marks {a : Act} {c : Cfg} {m : Mem} :
    (resume a c m).2.startChange = m.startChange ∧ (resume a c m).2.endChange = m.endChange := by
  obtain ⟨pos, left, q⟩ := c
  match pos with
  | [] => exact ⟨rfl, rfl⟩
  | [] :: up => exact ⟨rfl, rfl⟩
  | (n :: ns) :: up =>
    cases a <;> first
      | exact ⟨rfl, rfl⟩
      | (simp only [resume]; split <;> exact ⟨rfl, rfl⟩)

theorem run_marks {env : Env} (fuel : Nat) : ∀ {st : State} {r : End × Mem}, StIn (fun l => noMark l = true) st → run env fuel st = some r →
    r.2.startChange = st.m.startChange ∧ r.2.endChange = st.m.endChange := by
  induction fuel with
  | zero => intro st r _ h; simp [run] at h
  | succ fuel ih =>
    intro st r hs h
    have hin := step_in noMark_inherited (env := env) hs
    have hst : match step env st with
        | .inl s => s.m.startChange = st.m.startChange ∧ s.m.endChange = st.m.endChange
        | .inr r => r.2.startChange = st.m.startChange ∧ r.2.endChange = st.m.endChange := by
      obtain ⟨c, act, m, stack⟩ := st
      rw [step_eq]
      have key : ∀ r : Res × Mem, r.2.startChange = m.startChange ∧ r.2.endChange = m.endChange →
          match after c stack r with
          | .inl s => s.m.startChange = m.startChange ∧ s.m.endChange = m.endChange
          | .inr r => r.2.startChange = m.startChange ∧ r.2.endChange = m.endChange := by
        intro r hr
        obtain ⟨r1, r2⟩ := r
        cases r1 <;> first
          | exact hr
          | (cases stack <;> exact hr)
      cases act with
      | some a => exact key _ resume_marks
      | none =>
        refine key _ ?_
        obtain ⟨pos, left, q⟩ := c
        match pos with
        | [] => exact ⟨rfl, rfl⟩
        | [] :: up => exact ⟨rfl, rfl⟩
        | (n :: ns) :: up =>
          have : noMark (n :: ns) = true := hs.cur _ (by simp)
          rw [noMark, Bool.and_eq_true] at this
          exact execNode_marks this.1
    rw [run] at h
    cases h1 : step env st with
    | inr r1 => rw [h1] at h hst; cases h; exact hst
    | inl s1 =>
      rw [h1] at h hst hin
      obtain ⟨a, b⟩ := ih hin h
      exact ⟨a.trans hst.1, b.trans hst.2⟩

theorem tries_marks {env : Env} {body : List Node} (hb : noMark body = true) (fuel : Nat) (keep : Bool) (n : Nat) :
    ∀ {pos : Int} {m : Mem} {out : Out}, tries env [[.brackets (some 0) body]] fuel keep n pos m = some out →
      out.obj.startChange = m.startChange ∧ out.obj.endChange = m.endChange ∧ out.obj.moves = keep := by
  have h0 : ∀ (pos : Int) (m : Mem), StIn (fun l => noMark l = true) ⟨⟨[[.brackets (some 0) body]], true, pos⟩, none, m, []⟩ := by
    intro pos m
    refine ⟨?_, by simp⟩
    intro l hl
    simp only [List.mem_singleton] at hl
    subst hl
    simp [noMark, noMarkN, hb]
  induction n with
  | zero =>
    intro pos m out h
    rw [tries.eq_def] at h; dsimp only at h
    cases hr : run env fuel ⟨⟨[[.brackets (some 0) body]], true, pos⟩, none, m, []⟩ with
    | none => rw [hr] at h; cases h
    | some r =>
      obtain ⟨e, m1⟩ := r
      have a := run_marks fuel (h0 pos m) hr
      rw [hr] at h
      cases e with
      | oob => cases h; exact ⟨a.1, a.2, rfl⟩
      | ret v => cases v <;> (cases h; exact ⟨a.1, a.2, rfl⟩)
  | succ n ih =>
    intro pos m out h
    rw [tries.eq_def] at h; dsimp only at h
    cases hr : run env fuel ⟨⟨[[.brackets (some 0) body]], true, pos⟩, none, m, []⟩ with
    | none => rw [hr] at h; cases h
    | some r =>
      obtain ⟨e, m1⟩ := r
      have a := run_marks fuel (h0 pos m) hr
      rw [hr] at h
      cases e with
      | oob => cases h; exact ⟨a.1, a.2, rfl⟩
      | ret v => cases v with
        | true => cases h; exact ⟨a.1, a.2, rfl⟩
        | false =>
          obtain ⟨b1, b2, b3⟩ := ih h
          exact ⟨b1.trans a.1, b2.trans a.2, b3⟩

theorem parse_marks {chars : Chars} {x : Expr} (hx : noMark x.body = true) {fuel : Nat} {o : Obj} {a : Args} {mt : Matches} {out : Out}
    (h : parse chars x fuel o a mt = some out) :
    out.obj.startChange = o.startChange ∧ out.obj.endChange = o.endChange ∧ out.obj.moves = o.moves := by
  unfold parse at h
  dsimp only at h
  split at h
  · cases h; exact ⟨rfl, rfl, rfl⟩
  · split at h
    · exact tries_marks hx _ _ _ h
    · split at h
      · cases h; exact ⟨rfl, rfl, rfl⟩
      · cases h; exact ⟨rfl, rfl, rfl⟩
      · exact tries_marks hx _ _ _ h

/-- `positionMoves` is what it was before the call, for every expression -/
theorem C30_position_moves_is_restored {chars : Chars} {x : Expr} {fuel : Nat} {o : Obj} {a : Args} {mt : Matches} {out : Out}
    (h : parse chars x fuel o a mt = some out) : out.obj.moves = o.moves := by
  have key : ∀ (n : Nat) {pos : Int} {m : Mem} {out : Out}, tries (envOf chars x a) x.root fuel o.moves n pos m = some out →
      out.obj.moves = o.moves := by
    intro n
    induction n with
    | zero =>
      intro pos m out h
      rw [tries.eq_def] at h; dsimp only at h
      split at h <;> cases h <;> rfl
    | succ n ih =>
      intro pos m out h
      rw [tries.eq_def] at h; dsimp only at h
      split at h
      · cases h
      · exact ih h
      · cases h; rfl
  unfold parse at h
  dsimp only at h
  split at h
  · cases h; rfl
  · split at h
    · exact key _ h
    · split at h
      · cases h; rfl
      · cases h; rfl
      · exact key _ h

/-- a history: calls of `parse` on one object, one after another, each with its own text, positions and result structure -/
def uses (chars : Chars) (x : Expr) : List (Nat × Args × Matches) → Obj → Option Obj
  | [], o => some o
  | (fuel, a, mt) :: l, o => (parse chars x fuel o a mt).bind fun out => uses chars x l out.obj

/-- C30 for expressions without `\m`, `\M`: after any history of calls, a call on the object gives what it gives on the object before
the history (in particular a new one): it ends or not after the same number of rounds, returns the same value and, on success, the same
groups, whatever the result structure held. -/
theorem C30_calls_do_not_depend_on_earlier_calls_partial (chars : Chars) (x : Expr) (hx : noMark x.body = true)
    (history : List (Nat × Args × Matches)) (o0 o : Obj) (ho : uses chars x history o0 = some o) (fuel : Nat) (a : Args) (mt mt' : Matches) :
    SameResult x (parse chars x fuel o a mt) (parse chars x fuel o0 a mt') := by
  have key : ∀ (l : List (Nat × Args × Matches)) (o1 : Obj), uses chars x l o1 = some o →
      o.startChange = o1.startChange ∧ o.endChange = o1.endChange ∧ o.moves = o1.moves := by
    intro l
    induction l with
    | nil => intro o1 h; cases h; exact ⟨rfl, rfl, rfl⟩
    | cons p l ih =>
      intro o1 h
      obtain ⟨f, a, mt⟩ := p
      rw [uses] at h
      cases hp : parse chars x f o1 a mt with
      | none => rw [hp] at h; cases h
      | some out =>
        rw [hp] at h
        have a := parse_marks hx hp
        have b := ih out.obj h
        exact ⟨b.1.trans a.1, b.2.1.trans a.2.1, b.2.2.trans a.2.2⟩
  obtain ⟨h1, h2, h3⟩ := key history o0 ho
  exact parse_sim chars x fuel o o0 a mt mt' h1 h2 h3

namespace Demo

/-- `/(ab|a)+c/` on two texts in turn: the object is changed by the first call, the second call is as on a new object -/
example : ∃ o, uses ascii (re 2 [.rangeN 1 [.brackets (some 1) [.or [.word (str "ab")], c 'a']], c 'c'])
      [(400, at_ "aababc" 0, noMatches), (400, at_ "aabab" 0, noMatches)] Obj.new = some o ∧
    noMark (re 2 [.rangeN 1 [.brackets (some 1) [.or [.word (str "ab")], c 'a']], c 'c']).body = true ∧
    o.vars (addr [[.rangeN 1 [], c 'c'], [.empty]]) ≠ Obj.new.vars (addr [[.rangeN 1 [], c 'c'], [.empty]]) := by
  have h : (uses ascii (re 2 [.rangeN 1 [.brackets (some 1) [.or [.word (str "ab")], c 'a']], c 'c'])
      [(400, at_ "aababc" 0, noMatches), (400, at_ "aabab" 0, noMatches)] Obj.new).map
        (fun o => decide (o.vars (addr [[.rangeN 1 [], c 'c'], [.empty]]) ≠ Obj.new.vars (addr [[.rangeN 1 [], c 'c'], [.empty]]))) = some true := by
    decide +kernel
  cases hu : uses ascii (re 2 [.rangeN 1 [.brackets (some 1) [.or [.word (str "ab")], c 'a']], c 'c'])
      [(400, at_ "aababc" 0, noMatches), (400, at_ "aabab" 0, noMatches)] Obj.new with
  | none => rw [hu] at h; cases h
  | some o =>
    rw [hu] at h
    exact ⟨o, rfl, by decide +kernel, by simpa using h⟩

/-- C30 fails for `\m`: `/(x\m)|y/` on "y" matches [0, 1) with a new object; after a call on "x" it reports success with no start, since
`startChange` is never reset. -/
theorem C30_mark_survives_a_call :
    shown 1 (call (re 2 [.or [.brackets (some 1) [c 'x', .msym .start]], c 'y']) (at_ "y" 0)) = some (.ret true, [(0, 1)]) ∧
    shown 1 (call2 (re 2 [.or [.brackets (some 1) [c 'x', .msym .start]], c 'y']) (at_ "x" 0) (at_ "y" 0)) = some (.ret true, [(-1, 1)]) := by
  decide +kernel

/-- the same within one call: searching `/x\mz|y/` in "xay" finds the "y" at 2, but reports [1, 3), from the mark of the attempt at 0 that
failed -/
theorem C30_mark_of_a_failed_attempt :
    shown 1 (call (re 1 [.or [c 'x', .msym .start, c 'z'], c 'y']) { at_ "xay" 0 with moves := some true }) = some (.ret true, [(1, 3)]) := by
  decide +kernel

end Demo
end Verif.RegExp
