import Verif.RegExp.Forward

/-!
# Marks `\m`, `\M` that are always set

`startChange` and `endChange` are never reset, so a mark of an earlier call can survive (`C30_mark_survives_a_call`). It cannot if every
way through the expression passes the mark (`sure`): then the flags left by earlier calls make no difference (`parse_flags`). With
`parse_sim` this gives C30 for expressions in which each of `\m`, `\M` does not occur or is passed on every way.
-/
namespace Verif.RegExp

/-- the node is the mark `k` -/
def isM (k : Meta) : Node → Bool
  | .msym j => j == k
  | _ => false

mutual
/-- every way through the chain passes the mark `k`. In a chain `or a, or b, c` (for `a|b|c`) each alternative does. -/
def sure (k : Meta) : List Node → Bool
  | [] => false
  | n :: ns => if isOr n then sureN k n && sure k ns else sureN k n || sure k ns
def sureN (k : Meta) : Node → Bool
  | .msym j => j == k
  | .brackets _ b | .named _ b | .or b => sure k b
  | .rangeN s b | .ngRangeN s b | .rangeNM s _ b | .ngRangeNM s _ b => decide (0 < s) && sure k b
  | .empty | .symb _ | .word _ | .enum _ | .nenum _ | .bkTrace _ | .bkTraceN _ | .bkTraceName _ | .bkTraceNName _ | .bkBrack _
  | .bkBrackName _ | .ahead _ | .nahead _ | .behind _ _ | .nbehind _ _ => false
end

mutual
/-- the mark `k` does not occur -/
def lacks (k : Meta) : List Node → Bool
  | [] => true
  | n :: ns => lacksN k n && lacks k ns
def lacksN (k : Meta) : Node → Bool
  | .msym j => j != k
  | .brackets _ b | .named _ b | .ahead b | .nahead b | .behind _ b | .nbehind _ b | .or b | .rangeN _ b | .rangeNM _ _ b | .ngRangeN _ b
  | .ngRangeNM _ _ b => lacks k b
  | .empty | .symb _ | .word _ | .enum _ | .nenum _ | .bkTrace _ | .bkTraceN _ | .bkTraceName _ | .bkTraceNName _ | .bkBrack _
  | .bkBrackName _ => true
end

mutual
/-- no bracket number 0 inside -/
def noZero : List Node → Bool
  | [] => true
  | n :: ns => noZeroN n && noZero ns
def noZeroN : Node → Bool
  | .brackets idx b => idx != some 0 && noZero b
  | .named _ b | .ahead b | .nahead b | .behind _ b | .nbehind _ b | .or b | .rangeN _ b | .rangeNM _ _ b | .ngRangeN _ b
  | .ngRangeNM _ _ b => noZero b
  | .empty | .msym _ | .symb _ | .word _ | .enum _ | .nenum _ | .bkTrace _ | .bkTraceN _ | .bkTraceName _ | .bkTraceNName _ | .bkBrack _
  | .bkBrackName _ => true
end

/-- each of `\m`, `\M` does not occur, or every way through the expression passes it -/
def tidy (x : Expr) : Bool :=
  noZero x.body && (lacks .start x.body || sure .start x.body) && (lacks .stop x.body || sure .stop x.body)

theorem lacks_inherited (k : Meta) : Inherited fun l => lacks k l = true := by
  refine ⟨fun n ns h => ?_, fun n ns h => ?_⟩ <;> rw [lacks, Bool.and_eq_true] at h
  · exact h.2
  · obtain ⟨h, -⟩ := h
    cases n <;> first
      | rfl
      | (rw [lacksN] at h; exact h)

theorem noZero_inherited : Inherited fun l => noZero l = true := by
  refine ⟨fun n ns h => ?_, fun n ns h => ?_⟩ <;> rw [noZero, Bool.and_eq_true] at h
  · exact h.2
  · obtain ⟨h, -⟩ := h
    cases n <;> first
      | rfl
      | (rw [noZeroN] at h; exact h)
      | (rw [noZeroN, Bool.and_eq_true] at h; exact h.2)

/-! ## Marks that do not occur -/

theorem execNode_flag_start (env : Env) (n : Node) (ns : List Node) (up : List (List Node)) (left : Bool) (q : Int) (m : Mem) :
    (execNode env n ns up left q m).2.startChange = (m.startChange || isM .start n) := by
  cases n with
  | msym k =>
    show (markMeta m q k).startChange = _
    cases k <;> simp [markMeta, isM]
  | brackets idx body => cases left <;> cases idx <;> simp [execNode, isM, Mem.set, Mem.close]
  | named idx body => cases left <;> cases idx <;> simp [execNode, isM, Mem.set, Mem.closeNamed]
  | ahead body => cases left <;> simp [execNode, isM]
  | nahead body => cases left <;> simp [execNode, isM]
  | behind k body => cases left <;> simp only [execNode, isM] <;> repeat' split
                     all_goals simp
  | nbehind k body => cases left <;> simp only [execNode, isM] <;> repeat' split
                      all_goals simp
  | or body => cases left <;> simp [execNode, isM]
  | rangeN s body => simp only [execNode, execRangeN, isM]; repeat' split
                     all_goals simp [Mem.set]
  | rangeNM s e body => simp only [execNode, execRangeNM, isM]; repeat' split
                        all_goals simp [Mem.set]
  | ngRangeN s body => simp only [execNode, execNGRangeN, isM]; repeat' split
                       all_goals simp [Mem.set]
  | ngRangeNM s e body => simp only [execNode, execRangeNM, isM]; repeat' split
                          all_goals simp [Mem.set]
  | _ => simp [execNode, isM]

theorem execNode_flag_stop (env : Env) (n : Node) (ns : List Node) (up : List (List Node)) (left : Bool) (q : Int) (m : Mem) :
    (execNode env n ns up left q m).2.endChange = (m.endChange || isM .stop n) := by
  cases n with
  | msym k =>
    show (markMeta m q k).endChange = _
    cases k <;> simp [markMeta, isM]
  | brackets idx body => cases left <;> cases idx <;> simp [execNode, isM, Mem.set, Mem.close]
  | named idx body => cases left <;> cases idx <;> simp [execNode, isM, Mem.set, Mem.closeNamed]
  | ahead body => cases left <;> simp [execNode, isM]
  | nahead body => cases left <;> simp [execNode, isM]
  | behind k body => cases left <;> simp only [execNode, isM] <;> repeat' split
                     all_goals simp
  | nbehind k body => cases left <;> simp only [execNode, isM] <;> repeat' split
                      all_goals simp
  | or body => cases left <;> simp [execNode, isM]
  | rangeN s body => simp only [execNode, execRangeN, isM]; repeat' split
                     all_goals simp [Mem.set]
  | rangeNM s e body => simp only [execNode, execRangeNM, isM]; repeat' split
                        all_goals simp [Mem.set]
  | ngRangeN s body => simp only [execNode, execNGRangeN, isM]; repeat' split
                       all_goals simp [Mem.set]
  | ngRangeNM s e body => simp only [execNode, execRangeNM, isM]; repeat' split
                          all_goals simp [Mem.set]
  | _ => simp [execNode, isM]

/-- the flag of the mark `k` -/
def Mem.flag (m : Mem) : Meta → Bool
  | .start => m.startChange
  | .stop => m.endChange
  | _ => false

theorem execNode_flag (env : Env) (n : Node) (ns : List Node) (up : List (List Node)) (left : Bool) (q : Int) (m : Mem) {k : Meta}
    (hk : k = .start ∨ k = .stop) : (execNode env n ns up left q m).2.flag k = (m.flag k || isM k n) := by
  rcases hk with rfl | rfl
  · exact execNode_flag_start ..
  · exact execNode_flag_stop ..

theorem resume_flag {a : Act} {c : Cfg} {m : Mem} (k : Meta) : (resume a c m).2.flag k = m.flag k := by
  have := resume_marks (a := a) (c := c) (m := m)
  cases k <;> first | exact this.1 | exact this.2 | rfl

theorem run_lacks {env : Env} {k : Meta} (hk : k = .start ∨ k = .stop) (fuel : Nat) : ∀ {st : State} {r : End × Mem},
    StIn (fun l => lacks k l = true) st → run env fuel st = some r → r.2.flag k = st.m.flag k := by
  induction fuel with
  | zero => intro st r _ h; simp [run] at h
  | succ fuel ih =>
    intro st r hs h
    have hin := step_in (lacks_inherited k) (env := env) hs
    have hst : match step env st with
        | .inl s => s.m.flag k = st.m.flag k
        | .inr r => r.2.flag k = st.m.flag k := by
      obtain ⟨c, act, m, stack⟩ := st
      rw [step_eq]
      have key : ∀ r : Res × Mem, r.2.flag k = m.flag k → match after c stack r with
          | .inl s => s.m.flag k = m.flag k
          | .inr r => r.2.flag k = m.flag k := by
        intro r hr
        obtain ⟨r1, r2⟩ := r
        cases r1 <;> first
          | exact hr
          | (cases stack <;> exact hr)
      cases act with
      | some a => exact key _ (resume_flag k)
      | none =>
        refine key _ ?_
        obtain ⟨pos, left, q⟩ := c
        match pos with
        | [] => rfl
        | [] :: up => rfl
        | (n :: ns) :: up =>
          have : lacks k (n :: ns) = true := hs.cur _ (by simp)
          rw [lacks, Bool.and_eq_true] at this
          have hn : isM k n = false := by
            cases n <;> first | rfl | skip
            simpa [lacksN, isM] using this.1
          show (execNode env n ns up left q m).2.flag k = _
          rw [execNode_flag _ _ _ _ _ _ _ hk, hn, Bool.or_false]
    rw [run] at h
    cases h1 : step env st with
    | inr r1 => rw [h1] at h hst; cases h; exact hst
    | inl s1 =>
      rw [h1] at h hst hin
      exact (ih hin h).trans hst

def Obj.flag (o : Obj) : Meta → Bool
  | .start => o.startChange
  | .stop => o.endChange
  | _ => false

theorem tries_lacks {env : Env} {body : List Node} {k : Meta} (hk : k = .start ∨ k = .stop) (hb : lacks k body = true) (fuel : Nat) (keep : Bool) (n : Nat) :
    ∀ {pos : Int} {m : Mem} {out : Out}, tries env [[.brackets (some 0) body]] fuel keep n pos m = some out → out.obj.flag k = m.flag k := by
  have h0 : ∀ (pos : Int) (m : Mem), StIn (fun l => lacks k l = true) ⟨⟨[[.brackets (some 0) body]], true, pos⟩, none, m, []⟩ := by
    intro pos m
    refine ⟨?_, by simp⟩
    intro l hl
    simp only [List.mem_singleton] at hl
    subst hl
    simp [lacks, lacksN, hb]
  have out1 : ∀ (r : End) (m : Mem), (outOf r m keep).obj.flag k = m.flag k := by rcases hk with rfl | rfl <;> intro r m <;> rfl
  induction n with
  | zero =>
    intro pos m out h
    rw [tries.eq_def] at h; dsimp only at h
    cases hr : run env fuel ⟨⟨[[.brackets (some 0) body]], true, pos⟩, none, m, []⟩ with
    | none => rw [hr] at h; cases h
    | some r =>
      obtain ⟨e, m1⟩ := r
      have a := run_lacks hk fuel (h0 pos m) hr
      rw [hr] at h
      cases e with
      | oob => cases h; rw [out1]; exact a
      | ret v => cases v <;> (cases h; rw [out1]; exact a)
  | succ n ih =>
    intro pos m out h
    rw [tries.eq_def] at h; dsimp only at h
    cases hr : run env fuel ⟨⟨[[.brackets (some 0) body]], true, pos⟩, none, m, []⟩ with
    | none => rw [hr] at h; cases h
    | some r =>
      obtain ⟨e, m1⟩ := r
      have a := run_lacks hk fuel (h0 pos m) hr
      rw [hr] at h
      cases e with
      | oob => cases h; rw [out1]; exact a
      | ret v => cases v with
        | true => cases h; rw [out1]; exact a
        | false => exact (ih h).trans a

theorem parse_lacks {chars : Chars} {x : Expr} {k : Meta} (hk : k = .start ∨ k = .stop) (hx : lacks k x.body = true) {fuel : Nat} {o : Obj} {a : Args}
    {mt : Matches} {out : Out} (h : parse chars x fuel o a mt = some out) : out.obj.flag k = o.flag k := by
  have e : ∀ mm, (⟨o.vars, mm, o.startChange, o.endChange⟩ : Mem).flag k = o.flag k := by rcases hk with rfl | rfl <;> intro mm <;> rfl
  unfold parse at h
  dsimp only at h
  split at h
  · cases h; rfl
  · split at h
    · rw [tries_lacks hk hx _ _ _ h, e]
    · split at h
      · cases h; rcases hk with rfl | rfl <;> rfl
      · cases h; rfl
      · rw [tries_lacks hk hx _ _ _ h, e]

/-! ## Flags that differ -/

def Mem.flags (m : Mem) (a b : Bool) : Mem := { m with startChange := a, endChange := b }

theorem flags_self (m : Mem) : m.flags m.startChange m.endChange = m := rfl

theorem execNode_flags (env : Env) (n : Node) (ns : List Node) (up : List (List Node)) (left : Bool) (q : Int) (m : Mem) (a b : Bool)
    (hz : noZeroN n = true ∨ left = true) :
    execNode env n ns up left q (m.flags a b) =
      ((execNode env n ns up left q m).1, (execNode env n ns up left q m).2.flags (a || isM .start n) (b || isM .stop n)) := by
  have z1 : (m.flags a b).vars = m.vars := rfl
  have z2 : (m.flags a b).m = m.m := rfl
  cases n with
  | msym k =>
    simp only [execNode]
    cases k <;> simp [markMeta, isM, Mem.flags]
  | brackets idx body =>
    cases left with
    | true => cases idx <;> simp [execNode, isM, Mem.set, Mem.flags]
    | false =>
      cases idx with
      | none => simp [execNode, isM]
      | some i =>
        have hi : i ≠ 0 := by
          rintro rfl
          simp [noZeroN] at hz
        simp [execNode, isM, Mem.close, Mem.flags, hi]
  | named idx body => cases left <;> cases idx <;> simp [execNode, isM, Mem.set, Mem.closeNamed, Mem.flags] <;> rfl
  | ahead body => cases left <;> simp [execNode, isM]
  | nahead body => cases left <;> simp [execNode, isM]
  | behind k body => cases left <;> simp only [execNode, isM] <;> repeat' split
                     all_goals simp_all
  | nbehind k body => cases left <;> simp only [execNode, isM] <;> repeat' split
                      all_goals simp_all
  | or body => cases left <;> simp [execNode, isM]
  | rangeN s body => simp only [execNode, execRangeN, isM, z1]; repeat' split
                     all_goals simp [Mem.set, Mem.flags]
  | rangeNM s e body => simp only [execNode, execRangeNM, isM, z1]; repeat' split
                        all_goals simp [Mem.set, Mem.flags]
  | ngRangeN s body => simp only [execNode, execNGRangeN, isM, z1]; repeat' split
                       all_goals simp [Mem.set, Mem.flags]
  | ngRangeNM s e body => simp only [execNode, execRangeNM, isM, z1]; repeat' split
                          all_goals simp [Mem.set, Mem.flags]
  | _ => simp [execNode, isM, z2]

theorem resume_flags (act : Act) (c : Cfg) (m : Mem) (a b : Bool) :
    resume act c (m.flags a b) = ((resume act c m).1, (resume act c m).2.flags a b) := by
  obtain ⟨pos, left, q⟩ := c
  match pos with
  | [] => rfl
  | [] :: up => rfl
  | (n :: ns) :: up =>
    cases act <;> first
      | rfl
      | (simp only [resume, Mem.flags]; by_cases h : (m.vars (addr ((n :: ns) :: up))).p0 = 0 <;> simp only [h, if_true, if_false] <;> rfl)

/-! ## What is still to be passed -/

/-- the mark is passed after the node a pointer points to is finished -/
def later (k : Meta) : List (List Node) → Bool
  | [] => false
  | [] :: up => later k up
  | (n :: ns) :: up => if isOr n then later k up else sure k ns || later k up

/-- the mark is passed on every way from the configuration on -/
def Due (k : Meta) (c : Cfg) : Prop :=
  if c.left then ∃ x up, c.pos = x :: up ∧ (sure k x || later k up) = true else later k c.pos = true

/-- the same for an element of the stack -/
def DueE (k : Meta) (c : Cfg) : Prop := ∃ n ns up, c.pos = (n :: ns) :: up ∧ (sure k ns || later k up) = true

def DueR (k : Meta) (c : Cfg) : Res → Prop
  | .goto c' => Due k c'
  | .call c' _ _ => Due k c' ∧ DueE k c
  | .fail | .succ | .oob => True

theorem due_left {k : Meta} {x : List Node} {up : List (List Node)} {q : Int} (h : (sure k x || later k up) = true) : Due k ⟨x :: up, true, q⟩ :=
  ⟨x, up, rfl, h⟩

theorem execNode_due {env : Env} {k : Meta} {n : Node} {ns : List Node} {up : List (List Node)} {left : Bool} {q : Int} {m : Mem} (hn : isM k n = false)
    (h : Due k ⟨(n :: ns) :: up, left, q⟩) : DueR k ⟨(n :: ns) :: up, left, q⟩ (execNode env n ns up left q m).1 := by
  -- after the node
  have nx : ∀ q', (sure k ns || later k up) = true → Due k ⟨ns :: up, true, q'⟩ := fun q' h => due_left h
  have el : (sure k ns || later k up) = true → DueE k ⟨(n :: ns) :: up, left, q⟩ := fun h => ⟨n, ns, up, rfl, h⟩
  have bd : ∀ q', isOr n = false → (sure k n.body || (sure k ns || later k up)) = true → Due k ⟨n.body :: (n :: ns) :: up, true, q'⟩ := by
    intro q' ho h
    refine due_left ?_
    rw [later, ho]; exact h
  have hl : left = true → isOr n = false → (sureN k n || (sure k ns || later k up)) = true := by
    intro h1 h2
    subst h1
    obtain ⟨x, u, he, h⟩ := h
    cases he
    rw [sure, h2] at h
    simpa [Bool.or_assoc] using h
  have hr : left = false → isOr n = false → (sure k ns || later k up) = true := by
    intro h1 h2
    subst h1
    have h : later k ((n :: ns) :: up) = true := h
    rw [later, h2] at h
    exact h
  have plain : isOr n = false → sureN k n = false → (sure k ns || later k up) = true := by
    intro h1 h2
    cases left with
    | true => have := hl rfl h1; rw [h2] at this; simpa using this
    | false => exact hr rfl h1
  have test : ∀ ck, (sure k ns || later k up) = true → DueR k ⟨(n :: ns) :: up, left, q⟩ (tested ns up ck) := by
    intro ck h
    cases ck with
    | no => trivial
    | oob => trivial
    | yes q' => exact nx _ h
  -- a range: entered for the first time with a count of at least one the body is next
  have rng : ∀ s b, n = .rangeN s b ∨ n = .ngRangeN s b ∨ (∃ e, n = .rangeNM s e b) ∨ (∃ e, n = .ngRangeNM s e b) →
      (sure k b || (sure k ns || later k up)) = true ∧ ((left = true → s = 0) → (sure k ns || later k up) = true) := by
    intro s b hnn
    have ho : isOr n = false := by rcases hnn with rfl | rfl | ⟨e, rfl⟩ | ⟨e, rfl⟩ <;> rfl
    have hsn : sureN k n = (decide (0 < s) && sure k b) := by rcases hnn with rfl | rfl | ⟨e, rfl⟩ | ⟨e, rfl⟩ <;> rfl
    cases left with
    | false =>
      have := hr rfl ho
      exact ⟨by rw [this]; simp, fun _ => this⟩
    | true =>
      have := hl rfl ho
      rw [hsn] at this
      refine ⟨?_, fun hs => ?_⟩
      · cases hb : sure k b with
        | true => rfl
        | false => rw [hb] at this; simpa using this
      · have hs := hs rfl
        subst hs
        simpa using this
  have p0 : ∀ (v : Vars) s p1, (initVars v left s p1).p0 = 0 → left = true → s = 0 := by
    intro v s p1 h hl
    subst hl
    exact h
  cases n with
  | empty => exact nx _ (plain rfl rfl)
  | msym j => exact test _ (plain rfl (by simpa [sureN, isM] using hn))
  | symb c => exact test _ (plain rfl rfl)
  | word w => exact test _ (plain rfl rfl)
  | enum cls => exact test _ (plain rfl rfl)
  | nenum cls => exact test _ (plain rfl rfl)
  | brackets idx body =>
    cases left with
    | true => exact bd _ rfl (hl rfl rfl)
    | false => cases idx <;> exact nx _ (hr rfl rfl)
  | named idx body =>
    cases left with
    | true => exact bd _ rfl (hl rfl rfl)
    | false => cases idx <;> exact nx _ (hr rfl rfl)
  | bkTrace j => exact test _ (plain rfl rfl)
  | bkTraceN j => exact test _ (plain rfl rfl)
  | bkTraceName j => exact test _ (plain rfl rfl)
  | bkTraceNName j => exact test _ (plain rfl rfl)
  | bkBrack j => exact test _ (plain rfl rfl)
  | bkBrackName j => exact test _ (plain rfl rfl)
  | ahead body =>
    have hp := plain rfl rfl
    cases left with
    | true => exact ⟨bd _ rfl (by rw [hp]; simp), el hp⟩
    | false => trivial
  | nahead body =>
    have hp := plain rfl rfl
    cases left with
    | true => exact ⟨bd _ rfl (by rw [hp]; simp), el hp⟩
    | false => trivial
  | behind j body =>
    have hp := plain rfl rfl
    cases left with
    | true =>
      show DueR _ _ (Prod.fst (if q - j < 0 then _ else _))
      split
      · trivial
      · exact ⟨bd _ rfl (by rw [hp]; simp), el hp⟩
    | false => trivial
  | nbehind j body =>
    have hp := plain rfl rfl
    cases left with
    | true =>
      show DueR _ _ (Prod.fst (if q - j ≥ 0 then _ else _))
      split
      · exact ⟨bd _ rfl (by rw [hp]; simp), el hp⟩
      · exact nx _ hp
    | false => trivial
  | or body =>
    cases left with
    | true =>
      obtain ⟨x, u, he, h⟩ := h
      cases he
      rw [sure] at h
      simp only [isOr, if_true, sureN] at h
      refine ⟨due_left ?_, el ?_⟩
      · rw [later]
        simp only [isOr, if_true]
        revert h
        cases sure k body <;> cases later k up <;> simp
      · revert h
        cases sure k ns <;> cases later k up <;> simp
    | false =>
      show later k up = true
      have h : later k ((.or body :: ns) :: up) = true := h
      rw [later] at h
      simpa [isOr] using h
  | rangeN s body =>
    obtain ⟨r1, r2⟩ := rng s body (.inl rfl)
    show DueR _ _ (execRangeN ns up (.rangeN s body) s body left q m).1
    unfold execRangeN
    dsimp only
    split
    · rename_i hc; exact nx _ (r2 (p0 _ _ _ hc.1))
    · split
      · rename_i hc; exact ⟨bd _ rfl r1, el (r2 (p0 _ _ _ hc))⟩
      · exact bd _ rfl r1
  | rangeNM s e body =>
    obtain ⟨r1, r2⟩ := rng s body (.inr (.inr (.inl ⟨e, rfl⟩)))
    show DueR _ _ (execRangeNM ns up (.rangeNM s e body) s e body false left q m).1
    unfold execRangeNM
    dsimp only
    split
    · rename_i hc
      have := r2 (p0 _ _ _ hc)
      split
      · exact ⟨nx _ this, el this⟩
      · exact ⟨bd _ rfl r1, el this⟩
    · exact bd _ rfl r1
  | ngRangeN s body =>
    obtain ⟨r1, r2⟩ := rng s body (.inr (.inl rfl))
    show DueR _ _ (execNGRangeN ns up (.ngRangeN s body) s body left q m).1
    unfold execNGRangeN
    dsimp only
    split
    · rename_i hc; exact nx _ (r2 (p0 _ _ _ hc.1))
    · split
      · rename_i hc; exact ⟨nx _ (r2 (p0 _ _ _ hc)), el (r2 (p0 _ _ _ hc))⟩
      · exact bd _ rfl r1
  | ngRangeNM s e body =>
    obtain ⟨r1, r2⟩ := rng s body (.inr (.inr (.inr ⟨e, rfl⟩)))
    show DueR _ _ (execRangeNM ns up (.ngRangeNM s e body) s e body true left q m).1
    unfold execRangeNM
    dsimp only
    split
    · rename_i hc
      have := r2 (p0 _ _ _ hc)
      split
      · exact ⟨nx _ this, el this⟩
      · exact ⟨nx _ this, el this⟩
    · exact bd _ rfl r1

theorem resume_due {k : Meta} {a : Act} {c : Cfg} {m : Mem} (ho : ∀ n ns up, c.pos = (n :: ns) :: up → a ≠ .ngRangeN2 ∧ a ≠ .ngRangeNM2 ∨ isOr n = false)
    (h : DueE k c) : DueR k c (resume a c m).1 := by
  obtain ⟨n, ns, up, hp, hd⟩ := h
  obtain ⟨pos, left, q⟩ := c
  have hp : pos = (n :: ns) :: up := hp
  subst hp
  have nx : Due k ⟨ns :: up, true, q⟩ := due_left hd
  have el : DueE k ⟨(n :: ns) :: up, left, q⟩ := ⟨n, ns, up, rfl, hd⟩
  have ho := ho n ns up rfl
  have bd : isOr n = false → Due k ⟨n.body :: (n :: ns) :: up, true, q⟩ := by
    intro ho
    refine due_left ?_
    rw [later, ho]
    simp only [Bool.false_eq_true, if_false]
    rw [hd]; simp
  cases a with
  | no => trivial
  | yes => trivial
  | brk => exact nx
  | rangeN2 => exact ⟨nx, el⟩
  | rangeNM2 => exact ⟨nx, el⟩
  | rangeNM3 => trivial
  | ngRangeN2 => exact bd (ho.resolve_left (by simp))
  | ngRangeNM2 => exact ⟨bd (ho.resolve_left (by simp)), el⟩
  | ngRangeNM3 => trivial

/-! ## Two runs -/

/-- the pointer is below the outermost bracket, or at it, or behind it -/
def Bot (body : List Node) (pos : List (List Node)) : Prop :=
  pos = [] ∨ pos = [[]] ∨ ∃ xs, pos = xs ++ [[.brackets (some 0) body]] ∧ ∀ l ∈ xs, noZero l = true

theorem Bot.cases {body : List Node} {n : Node} {ns : List Node} {up : List (List Node)} (h : Bot body ((n :: ns) :: up)) :
    ((n :: ns) :: up = [[.brackets (some 0) body]]) ∨
    (noZeroN n = true ∧ (Bot body (ns :: up) ∧ Bot body (n.body :: (n :: ns) :: up) ∧ Bot body up)) := by
  rcases h with h | h | ⟨xs, h, hx⟩
  · cases h
  · cases h
  · cases xs with
    | nil => exact .inl h
    | cons x xs =>
      simp only [List.cons_append, List.cons.injEq] at h
      obtain ⟨rfl, rfl⟩ := h
      have hz := hx _ (List.mem_cons_self ..)
      have hxs : ∀ l ∈ xs, noZero l = true := fun l hl => hx l (List.mem_cons_of_mem _ hl)
      have h1 : noZeroN n = true ∧ noZero ns = true := by simpa [noZero] using hz
      refine .inr ⟨h1.1, .inr (.inr ⟨ns :: xs, rfl, ?_⟩), .inr (.inr ⟨n.body :: (n :: ns) :: xs, rfl, ?_⟩), .inr (.inr ⟨xs, rfl, hxs⟩)⟩
      · intro l hl
        rcases List.mem_cons.1 hl with rfl | hl
        · exact h1.2
        · exact hxs l hl
      · intro l hl
        rcases List.mem_cons.1 hl with rfl | hl
        · exact noZero_inherited.body _ _ hz
        · exact hx l hl

structure DueAll (k : Meta) (st : State) : Prop where
  cur : match st.act with | none => Due k st.c | some _ => DueE k st.c
  stack : ∀ x ∈ st.stack, DueE k x.c

/-- a state and one with the flags `a`, `b` instead -/
structure Twin (body : List Node) (a b : Bool) (st : State) : Prop where
  start : a = st.m.startChange ∨ (sure .start body = true ∧ DueAll .start st)
  stop : b = st.m.endChange ∨ (sure .stop body = true ∧ DueAll .stop st)
  bot : Bot body st.c.pos
  stack : ∀ x ∈ st.stack, Bot body x.c.pos ∧ ElemFor x.c x.t ∧ ElemFor x.c x.f
  act : ∀ x, st.act = some x → ElemFor st.c x

def State.flags (st : State) (a b : Bool) : State := { st with m := st.m.flags a b }

/-- the two rounds end the same way, and the flags are equal or still to be set -/
def Twins (body : List Node) (u u' : State ⊕ (End × Mem)) : Prop :=
  match u with
  | .inl st => ∃ a b, u' = .inl (st.flags a b) ∧ Twin body a b st
  | .inr r => ∃ a b, u' = .inr (r.1, r.2.flags a b) ∧ (a = r.2.startChange ∨ sure .start body = true) ∧ (b = r.2.endChange ∨ sure .stop body = true)

theorem after_twin {body : List Node} {c : Cfg} {stack : List Elem} {r : Res × Mem} {a b : Bool}
    (h1 : a = r.2.startChange ∨ (sure .start body = true ∧ DueR .start c r.1 ∧ ∀ x ∈ stack, DueE .start x.c))
    (h2 : b = r.2.endChange ∨ (sure .stop body = true ∧ DueR .stop c r.1 ∧ ∀ x ∈ stack, DueE .stop x.c))
    (hs : ∀ x ∈ stack, Bot body x.c.pos ∧ ElemFor x.c x.t ∧ ElemFor x.c x.f)
    (hb : (∀ c', r.1 = .goto c' → Bot body c'.pos) ∧ ∀ c' t f, r.1 = .call c' t f → Bot body c'.pos ∧ Bot body c.pos ∧ ElemFor c t ∧ ElemFor c f) :
    Twins body (after c stack r) (after c stack (r.1, r.2.flags a b)) := by
  obtain ⟨r1, m⟩ := r
  have popT : ∀ v, Twins body (pop v m stack) (pop v (m.flags a b) stack) := by
    intro v
    cases stack with
    | nil => exact ⟨a, b, rfl, h1.imp id fun h => h.1, h2.imp id fun h => h.1⟩
    | cons x xs =>
      refine ⟨a, b, rfl, ?_, ?_, (hs x (List.mem_cons_self ..)).1, fun y hy => hs y (List.mem_cons_of_mem _ hy), ?_⟩
      · exact h1.imp id fun h => ⟨h.1, h.2.2 x (List.mem_cons_self ..), fun y hy => h.2.2 y (List.mem_cons_of_mem _ hy)⟩
      · exact h2.imp id fun h => ⟨h.1, h.2.2 x (List.mem_cons_self ..), fun y hy => h.2.2 y (List.mem_cons_of_mem _ hy)⟩
      · intro y hy
        have hy : some (if v = true then x.t else x.f) = some y := hy
        cases hy
        have := (hs x (List.mem_cons_self ..)).2
        cases v
        · exact this.2
        · exact this.1
  cases r1 with
  | fail => exact popT _
  | succ => exact popT _
  | oob => exact ⟨a, b, rfl, h1.imp id fun h => h.1, h2.imp id fun h => h.1⟩
  | goto c' =>
    refine ⟨a, b, rfl, ?_, ?_, hb.1 c' rfl, hs, fun x hx => by cases hx⟩
    · exact h1.imp id fun h => ⟨h.1, h.2.1, h.2.2⟩
    · exact h2.imp id fun h => ⟨h.1, h.2.1, h.2.2⟩
  | call c' t f =>
    obtain ⟨b1, b2, b3⟩ := hb.2 c' t f rfl
    have el : ∀ {k : Meta}, DueE k c → (∀ x ∈ stack, DueE k x.c) → ∀ x ∈ (⟨c, t, f⟩ :: stack : List Elem), DueE k x.c := by
      intro k hd hs x hx
      rcases List.mem_cons.1 hx with rfl | hx
      · exact hd
      · exact hs x hx
    refine ⟨a, b, rfl, ?_, ?_, b1, fun x hx => ?_, fun x hx => by cases hx⟩
    · exact h1.imp id fun h => ⟨h.1, h.2.1.1, el h.2.1.2 h.2.2⟩
    · exact h2.imp id fun h => ⟨h.1, h.2.1.1, el h.2.1.2 h.2.2⟩
    · rcases List.mem_cons.1 hx with rfl | hx
      · exact ⟨b2, b3⟩
      · exact hs x hx

theorem step_twin {env : Env} {body : List Node} (hbody : noZero body = true) {a b : Bool} {st : State} (h : Twin body a b st) :
    Twins body (step env st) (step env (st.flags a b)) := by
  obtain ⟨c, act, m, stack⟩ := st
  obtain ⟨h1, h2, hbot, hs, hact⟩ := h
  rw [step_eq, step_eq]
  cases act with
  | some x =>
    have he : ElemFor c x := hact x rfl
    show Twins body (after c stack (resume x c m)) (after c stack (resume x c (m.flags a b)))
    rw [resume_flags]
    have due : ∀ {k : Meta}, DueE k c → DueR k c (resume x c m).1 := by
      intro k hd
      refine resume_due (fun n ns up hp => ?_) hd
      have := he n ns up hp
      by_cases hx : x = .ngRangeN2
      · refine .inr ?_
        have := this.1 hx
        cases n <;> first | rfl | simp [isRange] at this
      · by_cases hx2 : x = .ngRangeNM2
        · refine .inr ?_
          have := this.2.2 (.inr hx2)
          cases n <;> first | rfl | simp [isRangeNM] at this
        · exact .inl ⟨hx, hx2⟩
    have mk := resume_marks (a := x) (c := c) (m := m)
    refine after_twin ?_ ?_ hs ⟨fun c' hc => ?_, fun c' t f hc => ?_⟩
    · rw [mk.1]
      exact h1.imp id fun h => ⟨h.1, due h.2.cur, h.2.stack⟩
    · rw [mk.2]
      exact h2.imp id fun h => ⟨h.1, due h.2.cur, h.2.stack⟩
    · obtain ⟨pos, left, q⟩ := c
      match pos, hbot, hc with
      | [], _, hc => cases hc
      | [] :: up, _, hc => cases hc
      | (n :: ns) :: up, hbot, hc =>
        have hbot : Bot body ((n :: ns) :: up) := hbot
        rcases hbot.cases with hr | ⟨_, r1, r2, r3⟩
        · cases hr
          cases x <;> cases hc
          · exact .inr (.inl rfl)
          · exact .inr (.inr ⟨[body], rfl, by simpa using hbody⟩)
        · cases x <;> cases hc
          · exact r1
          · exact r2
    · obtain ⟨pos, left, q⟩ := c
      have hac := resume_acts he hc
      match pos, hbot, hc with
      | [], _, hc => cases hc
      | [] :: up, _, hc => cases hc
      | (n :: ns) :: up, hbot, hc =>
        have hbot : Bot body ((n :: ns) :: up) := hbot
        refine ⟨?_, hbot, hac⟩
        rcases hbot.cases with hr | ⟨_, r1, r2, r3⟩
        · cases hr
          cases x <;> cases hc
          · exact .inr (.inl rfl)
          · exact .inr (.inl rfl)
          · exact .inr (.inr ⟨[body], rfl, by simpa using hbody⟩)
        · cases x <;> cases hc
          · exact r1
          · exact r1
          · exact r2
  | none =>
    obtain ⟨pos, left, q⟩ := c
    show Twins body (after ⟨pos, left, q⟩ stack (exec env ⟨pos, left, q⟩ m)) (after ⟨pos, left, q⟩ stack (exec env ⟨pos, left, q⟩ (m.flags a b)))
    match pos, hbot, h1, h2 with
    | [], _, h1, h2 =>
      refine after_twin (r := (.succ, m)) ?_ ?_ hs ⟨fun _ h => (by cases h), fun _ _ _ h => (by cases h)⟩
      · exact h1.imp id fun h => ⟨h.1, trivial, h.2.stack⟩
      · exact h2.imp id fun h => ⟨h.1, trivial, h.2.stack⟩
    | [] :: up, hbot, h1, h2 =>
      have due : ∀ {k : Meta}, Due k ⟨[] :: up, left, q⟩ → Due k ⟨up, false, q⟩ := by
        intro k h
        show later k up = true
        cases left with
        | true =>
          obtain ⟨x, u, he, h⟩ := h
          cases he
          simpa [sure] using h
        | false =>
          have h : later k ([] :: up) = true := h
          rwa [later] at h
      have hb' : Bot body up := by
        rcases hbot with h | h | ⟨xs, h, hx⟩
        · cases h
        · have h : ([] : List Node) :: up = [[]] := h
          cases h; exact .inl rfl
        · have h : ([] : List Node) :: up = xs ++ [[.brackets (some 0) body]] := h
          cases xs with
          | nil => cases h
          | cons x xs => cases h; exact .inr (.inr ⟨xs, rfl, fun l hl => hx l (List.mem_cons_of_mem _ hl)⟩)
      refine after_twin (r := (.goto ⟨up, false, q⟩, m)) ?_ ?_ hs ⟨fun _ h => (by cases h; exact hb'), fun _ _ _ h => (by cases h)⟩
      · exact h1.imp id fun h => ⟨h.1, due h.2.cur, h.2.stack⟩
      · exact h2.imp id fun h => ⟨h.1, due h.2.cur, h.2.stack⟩
    | (n :: ns) :: up, hbot, h1, h2 =>
      have hbot : Bot body ((n :: ns) :: up) := hbot
      show Twins body (after ⟨(n :: ns) :: up, left, q⟩ stack (execNode env n ns up left q m)) (after ⟨(n :: ns) :: up, left, q⟩ stack (execNode env n ns up left q (m.flags a b)))
      have sh := execNode_shape env n ns up left q m
      have hb2 : (∀ c', (execNode env n ns up left q m).1 = .goto c' → Bot body c'.pos) ∧
          ∀ c' t f, (execNode env n ns up left q m).1 = .call c' t f → Bot body c'.pos ∧ Bot body ((n :: ns) :: up) ∧
            ElemFor ⟨(n :: ns) :: up, left, q⟩ t ∧ ElemFor ⟨(n :: ns) :: up, left, q⟩ f := by
        have r : Bot body (ns :: up) ∧ Bot body (n.body :: (n :: ns) :: up) ∧ (isBracket n = false → Bot body up) := by
          rcases hbot.cases with hr | ⟨_, r1, r2, r3⟩
          · cases hr
            exact ⟨.inr (.inl rfl), .inr (.inr ⟨[body], rfl, by simpa using hbody⟩), fun h => by cases h⟩
          · exact ⟨r1, r2, fun _ => r3⟩
        refine ⟨fun c' hc => ?_, fun c' t f hc => ⟨?_, hbot, exec_acts (c := ⟨(n :: ns) :: up, left, q⟩) hc⟩⟩
        · rw [hc] at sh
          rcases sh with ⟨⟨q', rfl⟩, _⟩ | ⟨⟨q', rfl⟩, _⟩ | ⟨⟨q', rfl⟩, _, hb⟩
          · exact r.1
          · exact r.2.1
          · exact r.2.2 hb
        · rw [hc] at sh
          rcases sh.2.2 with ⟨⟨q', rfl⟩, _⟩ | ⟨⟨q', rfl⟩, _⟩
          · exact r.1
          · exact r.2.1
      by_cases hz : noZeroN n = true ∨ left = true
      · rw [execNode_flags env n ns up left q m a b hz]
        refine after_twin ?_ ?_ hs hb2
        · rw [execNode_flag_start]
          cases hm : isM .start n with
          | true => exact .inl (by simp)
          | false =>
            simp only [Bool.or_false]
            exact h1.imp id fun h => ⟨h.1, execNode_due hm h.2.cur, h.2.stack⟩
        · rw [execNode_flag_stop]
          cases hm : isM .stop n with
          | true => exact .inl (by simp)
          | false =>
            simp only [Bool.or_false]
            exact h2.imp id fun h => ⟨h.1, execNode_due hm h.2.cur, h.2.stack⟩
      · -- closing the outermost bracket: nothing is due
        have hroot : (n :: ns) :: up = [[.brackets (some 0) body]] := by
          rcases hbot.cases with hr | ⟨hn, _⟩
          · exact hr
          · exact absurd (.inl hn) hz
        have hleft : left = false := by
          cases left with
          | true => exact absurd (.inr rfl) hz
          | false => rfl
        cases hroot
        subst hleft
        have none : ∀ {k : Meta}, ¬ Due k ⟨[[.brackets (some 0) body]], false, q⟩ := by
          intro k h
          have h : later k [[.brackets (some 0) body]] = true := h
          simp [later, isOr, sure] at h
        have e1 : a = m.startChange := h1.resolve_right fun h => none h.2.cur
        have e2 : b = m.endChange := h2.resolve_right fun h => none h.2.cur
        subst e1
        subst e2
        rw [flags_self]
        have := after_twin (body := body) (c := ⟨[[.brackets (some 0) body]], false, q⟩) (stack := stack)
          (r := execNode env (.brackets (some 0) body) [] [] false q m)
          (a := (execNode env (.brackets (some 0) body) [] [] false q m).2.startChange)
          (b := (execNode env (.brackets (some 0) body) [] [] false q m).2.endChange) (.inl rfl) (.inl rfl) hs hb2
        rw [flags_self] at this
        exact this

/-- the ends of two runs -/
def TwinEnd (body : List Node) (u u' : Option (End × Mem)) : Prop :=
  match u with
  | none => u' = none
  | some r => ∃ a b, u' = some (r.1, r.2.flags a b) ∧ (a = r.2.startChange ∨ sure .start body = true) ∧ (b = r.2.endChange ∨ sure .stop body = true)

theorem run_twin {env : Env} {body : List Node} (hbody : noZero body = true) (fuel : Nat) : ∀ {a b : Bool} {st : State}, Twin body a b st →
    TwinEnd body (run env fuel st) (run env fuel (st.flags a b)) := by
  induction fuel with
  | zero => intro a b st h; exact rfl
  | succ fuel ih =>
    intro a b st h
    have := step_twin (env := env) hbody h
    rw [run, run]
    cases hst : step env st with
    | inl s1 =>
      rw [hst] at this
      obtain ⟨a', b', e, ht⟩ := this
      rw [e]
      exact ih ht
    | inr r =>
      rw [hst] at this
      obtain ⟨a', b', e, ht⟩ := this
      rw [e]
      exact ⟨a', b', rfl, ht⟩

theorem twin_start {body : List Node} {a b : Bool} {m : Mem} (pos : Int) (h1 : a = m.startChange ∨ sure .start body = true)
    (h2 : b = m.endChange ∨ sure .stop body = true) : Twin body a b ⟨⟨[[.brackets (some 0) body]], true, pos⟩, none, m, []⟩ := by
  have due : ∀ {k : Meta}, sure k body = true → Due k ⟨[[.brackets (some 0) body]], true, pos⟩ := by
    intro k h
    refine ⟨_, _, rfl, ?_⟩
    simp [sure, isOr, sureN, h]
  exact ⟨h1.imp id fun h => ⟨h, due h, by simp⟩, h2.imp id fun h => ⟨h, due h, by simp⟩, .inr (.inr ⟨[], rfl, by simp⟩), by simp, by simp⟩

/-- the caller sees the same -/
def TwinOut (u u' : Option Out) : Prop :=
  match u, u' with
  | none, none => True
  | some o, some o' => o'.res = o.res ∧ o'.m = o.m
  | _, _ => False

theorem tries_twin {env : Env} {body : List Node} (hbody : noZero body = true) (fuel : Nat) (keep keep' : Bool) (n : Nat) : ∀ (pos : Int) (m : Mem) (a b : Bool),
    (a = m.startChange ∨ sure .start body = true) → (b = m.endChange ∨ sure .stop body = true) →
    TwinOut (tries env [[.brackets (some 0) body]] fuel keep n pos m) (tries env [[.brackets (some 0) body]] fuel keep' n pos (m.flags a b)) := by
  induction n with
  | zero =>
    intro pos m a b h1 h2
    have hr := run_twin (env := env) hbody fuel (twin_start pos h1 h2)
    rw [tries.eq_def, tries.eq_def]; dsimp only
    cases hrun : run env fuel ⟨⟨[[.brackets (some 0) body]], true, pos⟩, none, m, []⟩ with
    | none =>
      rw [hrun] at hr
      have hr : run env fuel ⟨⟨[[.brackets (some 0) body]], true, pos⟩, none, m.flags a b, []⟩ = none := hr
      rw [hr]; trivial
    | some r =>
      rw [hrun] at hr
      obtain ⟨a', b', e, _⟩ := hr
      have e : run env fuel ⟨⟨[[.brackets (some 0) body]], true, pos⟩, none, m.flags a b, []⟩ = _ := e
      rw [e]
      obtain ⟨r, m1⟩ := r
      rcases r with (_ | _) | _ <;> exact ⟨rfl, rfl⟩
  | succ n ih =>
    intro pos m a b h1 h2
    have hr := run_twin (env := env) hbody fuel (twin_start pos h1 h2)
    rw [tries.eq_def, tries.eq_def]; dsimp only
    cases hrun : run env fuel ⟨⟨[[.brackets (some 0) body]], true, pos⟩, none, m, []⟩ with
    | none =>
      rw [hrun] at hr
      have hr : run env fuel ⟨⟨[[.brackets (some 0) body]], true, pos⟩, none, m.flags a b, []⟩ = none := hr
      rw [hr]; trivial
    | some r =>
      rw [hrun] at hr
      obtain ⟨a', b', e, g1, g2⟩ := hr
      have e : run env fuel ⟨⟨[[.brackets (some 0) body]], true, pos⟩, none, m.flags a b, []⟩ = _ := e
      rw [e]
      obtain ⟨r, m1⟩ := r
      rcases r with (_ | _) | _
      · exact ih _ _ _ _ g1 g2
      · exact ⟨rfl, rfl⟩
      · exact ⟨rfl, rfl⟩

/-- flags that every way through the expression sets need not be those of the object -/
theorem parse_flags (chars : Chars) (x : Expr) (hx : noZero x.body = true) (fuel : Nat) (o o' : Obj) (args : Args) (mt : Matches)
    (h1 : o'.startChange = o.startChange ∨ sure .start x.body = true) (h2 : o'.endChange = o.endChange ∨ sure .stop x.body = true)
    (hv : o'.vars = o.vars) (hm : o'.moves = o.moves) : TwinOut (parse chars x fuel o args mt) (parse chars x fuel o' args mt) := by
  unfold parse
  dsimp only
  rw [hv, hm]
  have key : ∀ n, TwinOut (tries (envOf chars x args) x.root fuel o.moves n args.pos ⟨o.vars, clearMatches x mt, o.startChange, o.endChange⟩)
      (tries (envOf chars x args) x.root fuel o.moves n args.pos ⟨o.vars, clearMatches x mt, o'.startChange, o'.endChange⟩) :=
    fun n => tries_twin hx fuel _ _ n args.pos ⟨o.vars, clearMatches x mt, o.startChange, o.endChange⟩ o'.startChange o'.endChange h1 h2
  split
  · exact ⟨rfl, rfl⟩
  · split
    · exact key _
    · cases quickCheck (envOf chars x args) (firstOf x.body) args.pos with
      | none => exact ⟨rfl, rfl⟩
      | some b =>
        cases b with
        | false => exact ⟨rfl, rfl⟩
        | true => exact key _

/-! ## Histories -/

/-- each of the two flags is as at the beginning of the history, or every way through the expression sets it -/
theorem uses_flags {chars : Chars} {x : Expr} (hx : tidy x = true) (l : List (Nat × Args × Matches)) : ∀ {o1 o : Obj}, uses chars x l o1 = some o →
    (o.startChange = o1.startChange ∨ sure .start x.body = true) ∧ (o.endChange = o1.endChange ∨ sure .stop x.body = true) ∧ o.moves = o1.moves := by
  simp only [tidy, Bool.and_eq_true, Bool.or_eq_true] at hx
  obtain ⟨⟨_, hs⟩, he⟩ := hx
  induction l with
  | nil => intro o1 o h; cases h; exact ⟨.inl rfl, .inl rfl, rfl⟩
  | cons p l ih =>
    intro o1 o h
    obtain ⟨f, a, mt⟩ := p
    rw [uses] at h
    cases hp : parse chars x f o1 a mt with
    | none => rw [hp] at h; cases h
    | some out =>
      rw [hp] at h
      have h : uses chars x l out.obj = some o := h
      obtain ⟨b1, b2, b3⟩ := ih h
      refine ⟨?_, ?_, b3.trans (C30_position_moves_is_restored hp)⟩
      · rcases hs with hs | hs
        · exact b1.imp (fun e => e.trans (parse_lacks (k := .start) (.inl rfl) hs hp)) id
        · exact .inr hs
      · rcases he with he | he
        · exact b2.imp (fun e => e.trans (parse_lacks (k := .stop) (.inr rfl) he hp)) id
        · exact .inr he

theorem TwinOut.same {x : Expr} {u u' u'' : Option Out} (h : TwinOut u u') (h' : SameResult x u' u'') : SameResult x u u'' := by
  cases u with
  | none => cases u' with
    | none => exact h'
    | some _ => exact absurd h id
  | some o => cases u' with
    | none => exact absurd h id
    | some o' => cases u'' with
      | none => exact absurd h' id
      | some o'' =>
        obtain ⟨a, b⟩ := h
        obtain ⟨c, d⟩ := h'
        refine ⟨a.symm.trans c, fun e => ?_⟩
        have d := d (a.trans e)
        rw [b] at d
        exact d

/-- C30: after any history of calls, a call on the object gives what it gives on the object before the history (in particular a new one):
it ends or not after the same number of rounds, returns the same value and, on success, the same groups, whatever the result structure
held. For every expression in which each of `\m`, `\M` does not occur or is passed on every way through it. -/
theorem C30_tidy_calls_do_not_depend_on_earlier_calls_partial (chars : Chars) (x : Expr) (hx : tidy x = true)
    (history : List (Nat × Args × Matches)) (o0 o : Obj) (ho : uses chars x history o0 = some o) (fuel : Nat) (a : Args) (mt mt' : Matches) :
    SameResult x (parse chars x fuel o a mt) (parse chars x fuel o0 a mt') := by
  obtain ⟨h1, h2, h3⟩ := uses_flags hx history ho
  have hz : noZero x.body = true := by
    simp only [tidy, Bool.and_eq_true] at hx
    exact hx.1.1
  have t := parse_flags chars x hz fuel o ⟨o.vars, o0.startChange, o0.endChange, o.moves⟩ a mt (h1.imp Eq.symm id) (h2.imp Eq.symm id) rfl rfl
  exact t.same (parse_sim chars x fuel _ o0 a mt mt' rfl rfl h3)

/-- After any history of calls on an object that was new, a successful call reports a whole match within the range searched: not before
the position given, and its end not before its start. For every expression in which each of `\m`, `\M` does not occur or is passed on every
way, and none of them is in a look-behind. -/
theorem C28_match_within_the_range_searched (chars : Chars) (x : Expr) (hx : tidy x = true) (hf : fwd x.body = true) (hc : 0 < x.cMatch)
    (history : List (Nat × Args × Matches)) (o : Obj) (ho : uses chars x history Obj.new = some o) (fuel : Nat) (a : Args) (mt : Matches) (out : Out)
    (h0 : 0 ≤ a.pos) (h1 : a.pos ≤ a.text.length) (h2 : a.eol ≤ a.text.length) (hb : TraceOk a.back)
    (h : parse chars x fuel o a mt = some out) (hr : out.res = .ret true) :
    a.pos ≤ out.m.s 0 ∧ out.m.s 0 ≤ out.m.e 0 ∧ out.m.e 0 ≤ max a.pos a.eol := by
  have t := C30_tidy_calls_do_not_depend_on_earlier_calls_partial chars x hx history Obj.new o ho fuel a mt mt
  rw [h] at t
  cases h' : parse chars x fuel Obj.new a mt with
  | none => rw [h'] at t; exact absurd t id
  | some out' =>
    rw [h'] at t
    obtain ⟨t1, t2⟩ := t
    have g := parse_forward chars x hf hc fuel Obj.new a mt out' h0 h1 h2 hb ⟨rfl, rfl⟩ h' (t1.symm.trans hr)
    obtain ⟨t3, t4⟩ := (t2 hr).1 0 hc
    rw [t3, t4]; exact g

namespace Demo

/-- `/x\m(a|b\M)?y\M/` is tidy; after a call on "xby", the call on "xxay" from 1 on is as on a new object: [2, 4), and the object
carries both flags -/
example : tidy (re 2 [c 'x', .msym .start, .rangeNM 0 1 [.brackets (some 1) [.or [c 'a'], c 'b', .msym .stop]], c 'y', .msym .stop]) = true ∧
    fwd (re 2 [c 'x', .msym .start, .rangeNM 0 1 [.brackets (some 1) [.or [c 'a'], c 'b', .msym .stop]], c 'y', .msym .stop]).body = true ∧
    ((uses ascii (re 2 [c 'x', .msym .start, .rangeNM 0 1 [.brackets (some 1) [.or [c 'a'], c 'b', .msym .stop]], c 'y', .msym .stop])
      [(400, at_ "xby" 0, noMatches)] Obj.new).map fun o => (o.startChange, o.endChange)) = some (true, true) ∧
    shown 1 (call2 (re 2 [c 'x', .msym .start, .rangeNM 0 1 [.brackets (some 1) [.or [c 'a'], c 'b', .msym .stop]], c 'y', .msym .stop])
      (at_ "xby" 0) (at_ "xxay" 1)) = some (.ret true, [(2, 4)]) := by
  decide +kernel

/-- the two expressions of `C30_mark_survives_a_call` and `C30_mark_of_a_failed_attempt` are not tidy -/
example : tidy (re 2 [.or [.brackets (some 1) [c 'x', .msym .start]], c 'y']) = false ∧ tidy (re 1 [.or [c 'x', .msym .start, c 'z'], c 'y']) = false := by
  decide +kernel

/-- a mark in a look-behind: `/(\m.\M.)?#2/` on "ab" at 2 reports [0, 1), before the position searched from -/
theorem C28_mark_in_a_look_behind :
    shown 1 (call (re 1 [.behind 2 [.msym .start, .msym .any, .msym .stop, .msym .any]]) (at_ "ab" 2)) = some (.ret true, [(0, 1)]) := by
  decide +kernel

end Demo
end Verif.RegExp
