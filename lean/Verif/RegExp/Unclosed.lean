import Verif.RegExp.Groups

/-!
# Without the outermost bracket (for C80, C81)

The outermost bracket, number 0, is closed once, at the very end of a match. So a run is the same as that of the expression whose outermost bracket
has no number, but for this closing at the end.
-/
namespace Verif.RegExp

/-- the positions correspond; one below a bracket 0, the other below one without a number -/
def Sw (body : List Node) (pos pos' : List (List Node)) : Prop :=
  (pos = [] ∧ pos' = []) ∨ (pos = [[]] ∧ pos' = [[]]) ∨ ∃ xs, pos = xs ++ [[.brackets (some 0) body]] ∧ pos' = xs ++ [[.brackets none body]]

theorem Sw.addr {body : List Node} {pos pos' : List (List Node)} (h : Sw body pos pos') : addr pos = addr pos' := by
  rcases h with ⟨rfl, rfl⟩ | ⟨rfl, rfl⟩ | ⟨xs, rfl, rfl⟩
  · rfl
  · rfl
  · simp [RegExp.addr]

/-- the position is below the outermost bracket, or the bracket itself -/
def SwIn (body : List Node) (pos pos' : List (List Node)) : Prop := ∃ xs, pos = xs ++ [[.brackets (some 0) body]] ∧ pos' = xs ++ [[.brackets none body]]

theorem SwIn.cons {body : List Node} {pos pos' : List (List Node)} (l : List Node) (h : SwIn body pos pos') : SwIn body (l :: pos) (l :: pos') := by
  obtain ⟨xs, rfl, rfl⟩ := h
  exact ⟨l :: xs, rfl, rfl⟩

theorem SwIn.sw {body : List Node} {pos pos' : List (List Node)} (h : SwIn body pos pos') : Sw body pos pos' := Or.inr (Or.inr h)

def SwC (body : List Node) (c c' : Cfg) : Prop := Sw body c.pos c'.pos ∧ c.left = c'.left ∧ c.q = c'.q

def SwR (body : List Node) : Res → Res → Prop
  | .fail, .fail => True
  | .succ, .succ => True
  | .oob, .oob => True
  | .goto c, .goto c' => SwC body c c'
  | .call c t f, .call c' t' f' => SwC body c c' ∧ t = t' ∧ f = f'
  | _, _ => False

/-- a round below the outermost bracket -/
theorem exec_sw {env : Env} {body : List Node} {n : Node} {ns : List Node} {up up' : List (List Node)} (h : SwIn body up up') (left : Bool) (q : Int) (m : Mem) :
    SwR body (execNode env n ns up left q m).1 (execNode env n ns up' left q m).1 ∧ (execNode env n ns up left q m).2 = (execNode env n ns up' left q m).2 := by
  have ha : addr ((n :: ns) :: up) = addr ((n :: ns) :: up') := ((h.cons (n :: ns)).sw).addr
  have h1 : ∀ q, SwC body ⟨ns :: up, true, q⟩ ⟨ns :: up', true, q⟩ := fun q => ⟨(h.cons ns).sw, rfl, rfl⟩
  have h2 : ∀ b q, SwC body ⟨b :: (n :: ns) :: up, true, q⟩ ⟨b :: (n :: ns) :: up', true, q⟩ := fun b q => ⟨((h.cons (n :: ns)).cons b).sw, rfl, rfl⟩
  have h3 : ∀ q, SwC body ⟨up, false, q⟩ ⟨up', false, q⟩ := fun q => ⟨h.sw, rfl, rfl⟩
  have ht : ∀ ck, SwR body (tested ns up ck) (tested ns up' ck) := by
    intro ck
    cases ck with
    | no => trivial
    | oob => trivial
    | yes q => exact h1 q
  cases n with
  | empty => exact ⟨h1 q, rfl⟩
  | msym _ | symb _ | word _ | enum _ | nenum _ | bkTrace _ | bkTraceN _ | bkTraceName _ | bkTraceNName _ | bkBrack _ | bkBrackName _ => exact ⟨ht _, rfl⟩
  | brackets idx b | named idx b =>
    simp only [execNode, ← ha]
    split
    · exact ⟨h2 _ _, rfl⟩
    · split <;> exact ⟨h1 _, rfl⟩
  | ahead b | nahead b =>
    simp only [execNode]
    split
    · exact ⟨⟨h2 _ _, rfl, rfl⟩, rfl⟩
    · exact ⟨trivial, rfl⟩
  | behind k b =>
    simp only [execNode]
    split
    · split
      · exact ⟨trivial, rfl⟩
      · exact ⟨⟨h2 _ _, rfl, rfl⟩, rfl⟩
    · exact ⟨trivial, rfl⟩
  | nbehind k b =>
    simp only [execNode]
    split
    · split
      · exact ⟨⟨h2 _ _, rfl, rfl⟩, rfl⟩
      · exact ⟨h1 _, rfl⟩
    · exact ⟨trivial, rfl⟩
  | or b =>
    simp only [execNode]
    split
    · exact ⟨⟨h2 _ _, rfl, rfl⟩, rfl⟩
    · exact ⟨h3 _, rfl⟩
  | rangeN s b =>
    simp only [execNode, execRangeN, ← ha]
    repeat' split
    all_goals first | exact ⟨h1 _, rfl⟩ | exact ⟨h2 _ _, rfl⟩ | exact ⟨⟨h2 _ _, rfl, rfl⟩, rfl⟩
  | ngRangeN s b =>
    simp only [execNode, execNGRangeN, ← ha]
    repeat' split
    all_goals first | exact ⟨h1 _, rfl⟩ | exact ⟨h2 _ _, rfl⟩ | exact ⟨⟨h1 _, rfl, rfl⟩, rfl⟩
  | rangeNM s e b | ngRangeNM s e b =>
    simp only [execNode, execRangeNM, ← ha]
    repeat' split
    all_goals first | exact ⟨h2 _ _, rfl⟩ | exact ⟨⟨h1 _, rfl, rfl⟩, rfl⟩ | exact ⟨⟨h2 _ _, rfl, rfl⟩, rfl⟩

theorem resume_sw {body : List Node} {c c' : Cfg} (h : SwC body c c') (a : Act) (m : Mem) :
    SwR body (resume a c m).1 (resume a c' m).1 ∧ (resume a c m).2 = (resume a c' m).2 := by
  obtain ⟨pos, left, q⟩ := c
  obtain ⟨pos', left', q'⟩ := c'
  obtain ⟨h, h1, h2⟩ := h
  dsimp only at h h1 h2
  subst h1 h2
  rcases h with ⟨rfl, rfl⟩ | ⟨rfl, rfl⟩ | ⟨xs, rfl, rfl⟩
  · exact ⟨trivial, rfl⟩
  · exact ⟨trivial, rfl⟩
  · have hin : SwIn body (xs ++ [[.brackets (some 0) body]]) (xs ++ [[.brackets none body]]) := ⟨xs, rfl, rfl⟩
    match xs with
    | [] =>
      cases a
      case no | yes | rangeNM3 | ngRangeNM3 => exact ⟨trivial, rfl⟩
      case brk => exact ⟨⟨Or.inr (Or.inl ⟨rfl, rfl⟩), rfl, rfl⟩, rfl⟩
      case rangeN2 | rangeNM2 => exact ⟨⟨⟨Or.inr (Or.inl ⟨rfl, rfl⟩), rfl, rfl⟩, rfl, rfl⟩, rfl⟩
      case ngRangeN2 => exact ⟨⟨(hin.cons body).sw, rfl, rfl⟩, rfl⟩
      case ngRangeNM2 => exact ⟨⟨⟨(hin.cons body).sw, rfl, rfl⟩, rfl, rfl⟩, rfl⟩
    | [] :: xs => exact ⟨trivial, rfl⟩
    | (n :: ns) :: xs =>
      have hin' : SwIn body (xs ++ [[.brackets (some 0) body]]) (xs ++ [[.brackets none body]]) := ⟨xs, rfl, rfl⟩
      have ha := hin.sw.addr
      simp only [List.cons_append] at ha hin ⊢
      cases a
      case no | yes => exact ⟨trivial, rfl⟩
      case rangeNM3 | ngRangeNM3 => simp only [resume, ← ha]; exact ⟨trivial, trivial⟩
      case brk => exact ⟨⟨(hin'.cons ns).sw, rfl, rfl⟩, rfl⟩
      case rangeN2 | rangeNM2 => exact ⟨⟨⟨(hin'.cons ns).sw, rfl, rfl⟩, rfl, rfl⟩, rfl⟩
      case ngRangeN2 => simp only [resume, ← ha]; exact ⟨⟨(hin.cons n.body).sw, rfl, rfl⟩, trivial⟩
      case ngRangeNM2 => exact ⟨⟨⟨(hin.cons n.body).sw, rfl, rfl⟩, rfl, rfl⟩, rfl⟩

/-! ## Look-arounds are not left by the way -/

def isAround : Node → Bool
  | .ahead _ | .nahead _ | .behind _ _ | .nbehind _ _ => true
  | _ => false

/-- where a round goes from `cur`; a call whose success is not the success of the caller is made by a look-around -/
def Moves (cur : List (List Node)) : Res → Prop
  | .goto c => (∃ l, c.pos = l :: cur ∨ c.pos = l :: cur.tail) ∨ (c.pos = cur.tail ∧ c.left = false)
  | .call c t _ => (∃ l, c.pos = l :: cur ∨ c.pos = l :: cur.tail) ∧
      (t ≠ .yes → (∃ n ns up, cur = (n :: ns) :: up ∧ isAround n = true) ∧ ∃ l, c.pos = l :: cur)
  | _ => True

theorem moves_next {cur : List (List Node)} {ns l : List Node} {up : List (List Node)} (h : cur = l :: up) (b : Bool) (q : Int) : Moves cur (.goto ⟨ns :: up, b, q⟩) :=
  Or.inl ⟨ns, Or.inr (by rw [h]; rfl)⟩

theorem exec_moves {env : Env} {c : Cfg} {m : Mem} : Moves c.pos (exec env c m).1 := by
  obtain ⟨pos, left, q⟩ := c
  match pos with
  | [] => trivial
  | [] :: up => exact Or.inr ⟨rfl, rfl⟩
  | (n :: ns) :: up =>
    show Moves ((n :: ns) :: up) (execNode env n ns up left q m).1
    have h1 : ∀ q, Moves ((n :: ns) :: up) (.goto ⟨ns :: up, true, q⟩) := fun q => Or.inl ⟨ns, Or.inr rfl⟩
    have h2 : ∀ b q, Moves ((n :: ns) :: up) (.goto ⟨b :: (n :: ns) :: up, true, q⟩) := fun b q => Or.inl ⟨b, Or.inl rfl⟩
    have h3 : ∀ q f, Moves ((n :: ns) :: up) (.call ⟨ns :: up, true, q⟩ .yes f) := fun q f => ⟨⟨ns, Or.inr rfl⟩, fun e => absurd rfl e⟩
    have h4 : ∀ b q f, Moves ((n :: ns) :: up) (.call ⟨b :: (n :: ns) :: up, true, q⟩ .yes f) := fun b q f => ⟨⟨b, Or.inl rfl⟩, fun e => absurd rfl e⟩
    have h5 : ∀ b q t f, isAround n = true → Moves ((n :: ns) :: up) (.call ⟨b :: (n :: ns) :: up, true, q⟩ t f) := fun b q t f e =>
      ⟨⟨b, Or.inl rfl⟩, fun _ => ⟨⟨n, ns, up, rfl, e⟩, b, rfl⟩⟩
    have ht : ∀ ck, Moves ((n :: ns) :: up) (tested ns up ck) := by
      intro ck
      cases ck with
      | no => trivial
      | oob => trivial
      | yes q => exact h1 q
    cases n with
    | empty => exact h1 q
    | msym _ | symb _ | word _ | enum _ | nenum _ | bkTrace _ | bkTraceN _ | bkTraceName _ | bkTraceNName _ | bkBrack _ | bkBrackName _ => exact ht _
    | brackets idx b | named idx b =>
      simp only [execNode]
      repeat' split
      all_goals first | exact h2 _ _ | exact h1 _
    | ahead b | nahead b =>
      simp only [execNode]
      split
      · exact h5 _ _ _ _ rfl
      · trivial
    | behind k b =>
      simp only [execNode]
      repeat' split
      all_goals first | exact h5 _ _ _ _ rfl | trivial
    | nbehind k b =>
      simp only [execNode]
      repeat' split
      all_goals first | exact h5 _ _ _ _ rfl | exact h1 _ | trivial
    | or b =>
      simp only [execNode]
      split
      · exact h4 _ _ _
      · exact Or.inr ⟨rfl, rfl⟩
    | rangeN s b =>
      simp only [execNode, execRangeN]
      repeat' split
      all_goals first | exact h1 _ | exact h2 _ _ | exact h4 _ _ _
    | ngRangeN s b =>
      simp only [execNode, execNGRangeN]
      repeat' split
      all_goals first | exact h1 _ | exact h2 _ _ | exact h3 _ _
    | rangeNM s e b | ngRangeNM s e b =>
      simp only [execNode, execRangeNM]
      repeat' split
      all_goals first | exact h2 _ _ | exact h3 _ _ | exact h4 _ _ _

theorem resume_moves {a : Act} {c : Cfg} {m : Mem} : Moves c.pos (resume a c m).1 := by
  obtain ⟨pos, left, q⟩ := c
  match pos with
  | [] => trivial
  | [] :: up => trivial
  | (n :: ns) :: up =>
    cases a with
    | no | yes | rangeNM3 | ngRangeNM3 => trivial
    | brk => exact Or.inl ⟨ns, Or.inr rfl⟩
    | rangeN2 | rangeNM2 => exact ⟨⟨ns, Or.inr rfl⟩, fun e => absurd rfl e⟩
    | ngRangeN2 => exact Or.inl ⟨n.body, Or.inl rfl⟩
    | ngRangeNM2 => exact ⟨⟨n.body, Or.inl rfl⟩, fun e => absurd rfl e⟩

/-- the position `P` is left only through `P` itself -/
def Within (P : List (List Node)) (c : Cfg) : Option Act → Prop
  | none => P <:+ c.pos.tail ∨ (P = c.pos ∧ c.left = false)
  | some _ => P <:+ c.pos.tail

structure Nest (c : Cfg) (act : Option Act) (S : List Elem) : Prop where
  cur : ∀ x ∈ S, x.t ≠ .yes → Within x.c.pos c act
  look : ∀ x ∈ S, x.t ≠ .yes → ∃ n ns up, x.c.pos = (n :: ns) :: up ∧ isAround n = true
  order : S.Pairwise fun x y => y.t ≠ .yes → y.c.pos <:+ x.c.pos.tail

theorem suffix_tail {α : Type} {P L : List α} (h : P <:+ L) : P = L ∨ P <:+ L.tail := by
  cases L with
  | nil => exact Or.inl (List.suffix_nil.1 h)
  | cons a t => exact List.suffix_cons_iff.1 h

/-- a look-around that is left succeeds -/
theorem exec_look {env : Env} {c : Cfg} {m : Mem} {n : Node} {ns : List Node} {up : List (List Node)} (h : c.pos = (n :: ns) :: up) (hn : isAround n = true)
    (hl : c.left = false) : (exec env c m).1 = .succ := by
  obtain ⟨pos, left, q⟩ := c
  dsimp only at h hl
  subst h hl
  cases n <;> first | rfl | exact absurd hn (by simp [isAround])

theorem nest_pop {b : Bool} {m : Mem} {S : List Elem} {c : Cfg} {act : Option Act} (h : Nest c act S) : ∀ st, pop b m S = .inl st → Nest st.c st.act st.stack := by
  intro st hst
  cases S with
  | nil => cases hst
  | cons x xs =>
    simp only [pop, Sum.inl.injEq] at hst
    subst hst
    have := List.pairwise_cons.1 h.order
    exact ⟨fun y hy e => this.1 y hy e, fun y hy => h.look y (List.mem_cons_of_mem _ hy), this.2⟩

theorem nest_after {c : Cfg} {act : Option Act} {S : List Elem} (h : Nest c act S) {r : Res × Mem} (hm : Moves c.pos r.1)
    (hs : ∀ x ∈ S, x.t ≠ .yes → x.c.pos <:+ c.pos.tail ∨ r.1 = .succ) : ∀ st, after c S r = .inl st → Nest st.c st.act st.stack := by
  intro st hst
  obtain ⟨r, m⟩ := r
  have key : ∀ (P : List (List Node)) (c' : Cfg), P <:+ c.pos.tail → (∃ l, c'.pos = l :: c.pos ∨ c'.pos = l :: c.pos.tail) → P <:+ c'.pos.tail := by
    rintro P c' hp ⟨l, e | e⟩
    · rw [e]; exact hp.trans (List.tail_suffix _)
    · rw [e]; exact hp
  cases r with
  | fail => exact nest_pop h st hst
  | succ => exact nest_pop h st hst
  | oob => cases hst
  | goto c' =>
    simp only [after, Sum.inl.injEq] at hst
    subst hst
    refine ⟨fun x hx e => ?_, h.look, h.order⟩
    have hp : x.c.pos <:+ c.pos.tail := (hs x hx e).resolve_right (by simp)
    rcases hm with hm | ⟨hm, hl⟩
    · exact Or.inl (key _ _ hp hm)
    · rcases suffix_tail hp with hp | hp
      · exact Or.inr ⟨hp.trans hm.symm, hl⟩
      · left
        show x.c.pos <:+ c'.pos.tail
        rw [hm]; exact hp
  | call c' t f =>
    simp only [after, Sum.inl.injEq] at hst
    subst hst
    have hp : ∀ x ∈ S, x.t ≠ .yes → x.c.pos <:+ c.pos.tail := fun x hx e => (hs x hx e).resolve_right (by simp)
    refine ⟨fun x hx e => ?_, fun x hx e => ?_, List.pairwise_cons.2 ⟨fun y hy e => hp y hy e, h.order⟩⟩
    · rcases List.mem_cons.1 hx with rfl | hx
      · obtain ⟨-, l, hl⟩ := hm.2 e
        left
        show c.pos <:+ c'.pos.tail
        rw [hl]; exact List.suffix_refl _
      · exact Or.inl (key _ _ (hp x hx e) hm.1)
    · rcases List.mem_cons.1 hx with rfl | hx
      · exact (hm.2 e).1
      · exact h.look x hx e

theorem nest_step {env : Env} {st : State} (h : Nest st.c st.act st.stack) : ∀ st', step env st = .inl st' → Nest st'.c st'.act st'.stack := by
  intro st' hst
  obtain ⟨c, act, m, S⟩ := st
  cases act with
  | none =>
    refine nest_after h (r := exec env c m) exec_moves (fun x hx e => ?_) st' hst
    rcases h.cur x hx e with hp | ⟨hp, hl⟩
    · exact Or.inl hp
    · obtain ⟨n, ns, up, e1, e2⟩ := h.look x hx e
      exact Or.inr (exec_look (hp.symm.trans e1) e2 hl)
  | some a => exact nest_after h (r := resume a c m) resume_moves (fun x hx e => Or.inl (h.cur x hx e)) st' hst

/-! ## The two runs -/

/-- after the closing nothing happens any more -/
theorem run_over {env : Env} (fuel : Nat) : ∀ {st : State}, (st.act = some .yes ∨ st.act = none ∧ (st.c.pos = [] ∨ st.c.pos = [[]])) →
    (∀ x ∈ st.stack, x.t = .yes) → ∀ {r : End × Mem}, run env fuel st = some r → r = (.ret true, st.m) := by
  induction fuel with
  | zero => intro st _ _ r h; cases h
  | succ fuel ih =>
    intro st hs hS r h
    obtain ⟨c, act, m, S⟩ := st
    have hpop : cont env fuel (pop true m S) = some r → r = (.ret true, m) := by
      intro h
      cases S with
      | nil => simp only [pop, cont, Option.some.injEq] at h; exact h.symm
      | cons x xs =>
        have hx := hS x (by simp)
        have h : run env fuel ⟨x.c, some x.t, m, xs⟩ = some r := h
        exact ih (st := ⟨x.c, some x.t, m, xs⟩) (Or.inl (by rw [hx])) (fun y hy => hS y (List.mem_cons_of_mem _ hy)) h
    rw [run_succ] at h
    rcases hs with hs | ⟨hs, hp⟩
    · dsimp only at hs
      subst hs
      have e : resume .yes c m = (.succ, m) := by
        obtain ⟨pos, left, q⟩ := c
        match pos with
        | [] => rfl
        | [] :: up => rfl
        | (n :: ns) :: up => rfl
      have e2 : step env ⟨c, some .yes, m, S⟩ = pop true m S := by
        show after c S (resume .yes c m) = _
        rw [e]; rfl
      rw [e2] at h
      exact hpop h
    · dsimp only at hs hp
      subst hs
      obtain ⟨pos, left, q⟩ := c
      dsimp only at hp
      rcases hp with rfl | rfl
      · exact hpop h
      · have h : run env fuel ⟨⟨[], false, q⟩, none, m, S⟩ = some r := h
        exact ih (st := ⟨⟨[], false, q⟩, none, m, S⟩) (Or.inr ⟨rfl, Or.inl rfl⟩) hS h

/-- the stacks correspond -/
def SwS (body : List Node) : List Elem → List Elem → Prop
  | [], [] => True
  | x :: xs, y :: ys => SwC body x.c y.c ∧ x.t = y.t ∧ x.f = y.f ∧ SwS body xs ys
  | _, _ => False

theorem SwS.yes {body : List Node} : ∀ {S S' : List Elem}, SwS body S S' → (∀ x ∈ S, x.t = .yes) → ∀ x ∈ S', x.t = .yes
  | [], [], _, _ => by simp
  | x :: xs, y :: ys, h, hx => by
    intro z hz
    rcases List.mem_cons.1 hz with rfl | hz
    · rw [← h.2.1]; exact hx x (by simp)
    · exact SwS.yes h.2.2.2 (fun w hw => hx w (List.mem_cons_of_mem _ hw)) z hz

structure SwSt (body : List Node) (st st' : State) : Prop where
  c : SwC body st.c st'.c
  act : st.act = st'.act
  m : st.m = st'.m
  stack : SwS body st.stack st'.stack
  nest : Nest st.c st.act st.stack

theorem run_sw {env : Env} {body : List Node} (fuel : Nat) : ∀ {st st' : State}, SwSt body st st' → ∀ {r r' : End × Mem}, run env fuel st = some r →
    run env fuel st' = some r' → r.2 = r'.2 ∨ ∃ s q, r.2 = r'.2.close 0 s q := by
  induction fuel with
  | zero => intro st st' _ r r' h; cases h
  | succ fuel ih =>
    intro st st' hs r r' h h'
    have hn := fun u hu => nest_step (env := env) hs.nest u hu
    obtain ⟨c, act, m, S⟩ := st
    obtain ⟨c', act', m', S'⟩ := st'
    obtain ⟨hc, ha, hm, hS, hN⟩ := hs
    dsimp only at hc ha hm hS hN hn
    subst ha hm
    rw [run_succ] at h h'
    have hpop : ∀ b m1, (∀ u, pop b m1 S = .inl u → Nest u.c u.act u.stack) → cont env fuel (pop b m1 S) = some r →
        cont env fuel (pop b m1 S') = some r' → r.2 = r'.2 ∨ ∃ s q, r.2 = r'.2.close 0 s q := by
      intro b m1 hn h h'
      match S, S', hS with
      | [], [], _ =>
        simp only [pop, cont, Option.some.injEq] at h h'
        subst h h'
        exact Or.inl rfl
      | x :: xs, y :: ys, hS =>
        obtain ⟨x1, x2, x3, x4⟩ := hS
        exact ih (st := ⟨x.c, some (if b then x.t else x.f), m1, xs⟩) (st' := ⟨y.c, some (if b then y.t else y.f), m1, ys⟩)
          ⟨x1, by rw [x2, x3], rfl, x4, hn _ rfl⟩ h h'
    have key : ∀ u u' : Res × Mem, (∀ w, after c S u = .inl w → Nest w.c w.act w.stack) → SwR body u.1 u'.1 → u.2 = u'.2 →
        cont env fuel (after c S u) = some r → cont env fuel (after c' S' u') = some r' → r.2 = r'.2 ∨ ∃ s q, r.2 = r'.2.close 0 s q := by
      rintro ⟨u, m1⟩ ⟨u', m2⟩ hn hu hm h h'
      dsimp only at hm hu
      subst hm
      cases u with
      | fail =>
        cases u' with
        | fail => exact hpop false m1 hn h h'
        | _ => cases hu
      | succ =>
        cases u' with
        | succ => exact hpop true m1 hn h h'
        | _ => cases hu
      | oob =>
        cases u' with
        | oob =>
          simp only [after, cont, Option.some.injEq] at h h'
          subst h h'
          exact Or.inl rfl
        | _ => cases hu
      | goto d =>
        cases u' with
        | goto d' => exact ih (st := ⟨d, none, m1, S⟩) (st' := ⟨d', none, m1, S'⟩) ⟨hu, rfl, rfl, hS, hn _ rfl⟩ h h'
        | _ => cases hu
      | call d t f =>
        cases u' with
        | call d' t' f' =>
          obtain ⟨h1, rfl, rfl⟩ := hu
          exact ih (st := ⟨d, none, m1, ⟨c, t, f⟩ :: S⟩) (st' := ⟨d', none, m1, ⟨c', t, f⟩ :: S'⟩) ⟨h1, rfl, rfl, ⟨hc, rfl, rfl, hS⟩, hn _ rfl⟩ h h'
        | _ => cases hu
    cases act with
    | some a =>
      have e := resume_sw hc a m
      exact key _ _ hn e.1 e.2 h h'
    | none =>
      obtain ⟨pos, left, q⟩ := c
      obtain ⟨pos', left', q'⟩ := c'
      obtain ⟨hc1, hc2, hc3⟩ := hc
      dsimp only at hc1 hc2 hc3
      subst hc2 hc3
      rcases hc1 with ⟨rfl, rfl⟩ | ⟨rfl, rfl⟩ | ⟨xs, rfl, rfl⟩
      · exact key (.succ, m) (.succ, m) hn trivial rfl h h'
      · exact key (.goto ⟨[], false, q⟩, m) (.goto ⟨[], false, q⟩, m) hn ⟨Or.inl ⟨rfl, rfl⟩, rfl, rfl⟩ rfl h h'
      · match xs with
        | [] =>
          cases left with
          | true =>
            exact key (.goto ⟨[body, [.brackets (some 0) body]], true, q⟩, m.set [1] { m.vars [1] with start := q })
              (.goto ⟨[body, [.brackets none body]], true, q⟩, m.set [1] { m.vars [1] with start := q }) hn
              ⟨Or.inr (Or.inr ⟨[body], rfl, rfl⟩), rfl, rfl⟩ rfl h h'
          | false =>
            have hy : ∀ x ∈ S, x.t = .yes := by
              intro x hx
              by_cases e : x.t = .yes
              · exact e
              · obtain ⟨n, ns, up, e1, e2⟩ := hN.look x hx e
                rcases hN.cur x hx e with hp | ⟨hp, -⟩
                · have := List.suffix_nil.1 (show x.c.pos <:+ [] from hp)
                  rw [this] at e1; cases e1
                · rw [hp] at e1
                  simp only [List.nil_append, List.cons.injEq] at e1
                  rw [← e1.1.1] at e2
                  cases e2
            have h : run env fuel ⟨⟨[[]], true, q⟩, none, m.close 0 (m.vars [1]).start q, S⟩ = some r := h
            have h' : run env fuel ⟨⟨[[]], true, q⟩, none, m, S'⟩ = some r' := h'
            have e1 := run_over fuel (Or.inr ⟨rfl, Or.inr rfl⟩) hy h
            have e2 := run_over fuel (Or.inr ⟨rfl, Or.inr rfl⟩) (hS.yes hy) h'
            rw [e1, e2]
            exact Or.inr ⟨_, _, rfl⟩
        | [] :: xs =>
          exact key (.goto ⟨xs ++ [[Node.brackets (some 0) body]], false, q⟩, m) (.goto ⟨xs ++ [[Node.brackets none body]], false, q⟩, m) hn
            (show SwC body _ _ from ⟨Or.inr (Or.inr ⟨xs, rfl, rfl⟩), rfl, rfl⟩) rfl h h'
        | (n :: ns) :: xs =>
          have e := exec_sw (env := env) (n := n) (ns := ns) (show SwIn body (xs ++ [[.brackets (some 0) body]]) (xs ++ [[.brackets none body]]) from ⟨xs, rfl, rfl⟩) left q m
          exact key _ _ hn e.1 e.2 h h'

/-! ## A whole expression -/

/-- the group, or the mark, after a run; a mark that was passed has `e = 1` -/
def Held (g : Grp) (s e : Int) (m : Matches) : Prop := match g with
  | .num i => (m.s i, m.e i) = (s, e)
  | .name i => (m.ns i, m.ne i) = (s, e)
  | .mark true => e = 1 → m.e 0 = s
  | .mark false => e = 1 → m.s 0 ≤ m.e 0 → m.s 0 = min s (m.e 0)

theorem held_of {g : Grp} (hg : g ≠ .num 0) {s e : Int} {m m' : Mem} (h : m'.place g = (s, e)) (hm : m = m' ∨ ∃ a b, m = m'.close 0 a b) : Held g s e m.m := by
  cases g with
  | num i =>
    rcases hm with rfl | ⟨a, b, rfl⟩
    · exact h
    · exact (place_close (by simp [Grp.hasNum]; rintro rfl; exact hg rfl)).trans h
  | name i =>
    rcases hm with rfl | ⟨a, b, rfl⟩
    · exact h
    · exact (place_close (g := .name i) rfl).trans h
  | mark b =>
    cases b with
    | true =>
      intro he
      subst he
      simp only [Mem.place, Prod.mk.injEq] at h
      have hc : m'.endChange = true := by
        by_cases e : m'.endChange = true
        · exact e
        · rw [if_neg e] at h; exact absurd h.2 (by decide)
      rcases hm with rfl | ⟨a, b, rfl⟩
      · exact h.1
      · simp [Mem.close, hc, h.1]
    | false =>
      intro he hle
      subst he
      simp only [Mem.place, Prod.mk.injEq] at h
      have hc : m'.startChange = true := by
        by_cases e : m'.startChange = true
        · exact e
        · rw [if_neg e] at h; exact absurd h.2 (by decide)
      rcases hm with rfl | ⟨a, b, rfl⟩
      · rw [← h.1]; omega
      · revert hle
        simp only [Mem.close, hc, ne_eq, not_true_eq_false, Bool.true_eq_false, or_self, if_false, false_or, h.1]
        intro hle
        clear hle
        generalize he1 : (if m'.endChange = false then upd m'.m.e 0 b else m'.m.e) = e1
        by_cases hlt : e1 0 < s
        · rw [if_pos hlt]
          show (if (0 : Nat) = 0 then e1 0 else _) = _
          rw [if_pos rfl]
          omega
        · rw [if_neg hlt, h.1]
          omega

/-- a run of the whole expression, the group included -/
theorem run_group {env : Env} {H : Int} (he : EnvOk env H) {g : Grp} (hg : g ≠ .num 0) (body : List Node) (hf : inFrag false body = true)
    (ho : openG g body = true) {p : Int} (h0 : 0 ≤ p) (h1 : p ≤ H) (m : Mem) :
    ∃ k, ∀ fuel, k ≤ fuel → ∀ r, run env fuel ⟨⟨[[.brackets (some 0) body]], true, p⟩, none, m, []⟩ = some r →
      ∀ q s e, (caps env g body p).head? = some (q, some (s, e)) → Held g s e r.2.m := by
  have hn0 : notNum g none = true := rfl
  have key := capL_ok he (root := [.brackets none body]) hg body ho [[.brackets none body]] some (fun _ => False)
    (sokL env body [[.brackets none body]] some) (fun _ => True) p hf (.sub (.top (List.suffix_refl _)) (List.suffix_refl _))
    (fun _ => ⟨by rw [upLacks, upLacks, exitG, hn0, lacksG]; rfl, fun m _ => ⟨fun e => (by rw [exitG, hn0] at e; cases e), trivial⟩⟩) h0 h1
    (fun _ _ _ _ => Iff.rfl) (by simp) (fun _ _ _ _ => trivial) (fun _ _ _ _ => trivial)
    (by
      intro q hq m S _
      refine lands_step (st1 := ⟨⟨[[]], true, q⟩, none, m, S⟩) rfl ?_
      refine lands_step (st1 := ⟨⟨[], false, q⟩, none, m, S⟩) rfl ?_
      exact lands_pop (m := m) rfl ⟨fun _ _ => rfl, by simp, fun _ _ => trivial⟩)
  have hst : step env ⟨⟨[[.brackets none body]], true, p⟩, none, m, []⟩ = .inl ⟨⟨[body, [.brackets none body]], true, p⟩, none,
      m.set [1] { m.vars [1] with start := p }, []⟩ := rfl
  have hl := lands_step hst (key (m.set [1] { m.vars [1] with start := p }) [] trivial)
  obtain ⟨k, m', hp, hr⟩ := hl
  refine ⟨k, fun fuel hfuel r hrun q s e hc => ?_⟩
  obtain ⟨d, rfl⟩ : ∃ d, fuel = d + k := ⟨fuel - k, by omega⟩
  have hrun' := hr d
  rw [pop, cont] at hrun'
  have hsw := run_sw (env := env) (body := body) (d + k) (st := ⟨⟨[[.brackets (some 0) body]], true, p⟩, none, m, []⟩)
    (st' := ⟨⟨[[.brackets none body]], true, p⟩, none, m, []⟩) ⟨⟨Or.inr (Or.inr ⟨[], rfl, rfl⟩), rfl, rfl⟩, rfl, rfl, trivial,
      ⟨by simp, by simp, List.Pairwise.nil⟩⟩ hrun hrun'
  refine held_of hg ?_ hsw
  refine hp.fin (code (some (s, e))) ?_ s e rfl
  cases hl : caps env g body p with
  | nil => rw [hl] at hc; cases hc
  | cons x xs =>
    rw [hl] at hc
    simp only [List.head?_cons, Option.some.injEq] at hc
    subst hc
    rw [List.findSome?_cons]; rfl

end Verif.RegExp
