import Verif.RegExp.Lands

/-!
# Matching ends (C51)

Every call returns if each repeated part takes a character at least, in whatever state the object is: the fields of the nodes, which the
matcher does not restore properly (see C29), do not matter.
-/
namespace Verif.RegExp

mutual
/-- the part takes a character at least, whatever the counters of its repetitions hold -/
def takes : List Node → Bool
  | [] => false
  | n :: ns => if isOr n then takesN n && takes ns else takesN n || takes ns
def takesN : Node → Bool
  | .msym k => charMeta k
  | .symb _ | .enum _ | .nenum _ => true
  | .word w => !w.isEmpty
  | .brackets _ b | .named _ b | .or b => takes b
  | .rangeN s b | .ngRangeN s b | .rangeNM s _ b | .ngRangeNM s _ b => s != 0 && takes b
  | .empty | .bkTrace _ | .bkTraceN _ | .bkTraceName _ | .bkTraceNName _ | .bkBrack _ | .bkBrackName _ | .ahead _ | .nahead _
  | .behind _ _ | .nbehind _ _ => false
end

mutual
/-- every repeated part (`*`, `+`, `?`, `{n}`, `{n,}`, `{n,m}`, greedy or lazy) takes a character at least -/
def repsTake : List Node → Bool
  | [] => true
  | n :: ns => repsTakeN n && repsTake ns
def repsTakeN : Node → Bool
  | .empty | .msym _ | .symb _ | .word _ | .enum _ | .nenum _ | .bkTrace _ | .bkTraceN _ | .bkTraceName _ | .bkTraceNName _ | .bkBrack _
  | .bkBrackName _ => true
  | .brackets _ b | .named _ b | .or b | .ahead b | .nahead b | .behind _ b | .nbehind _ b => repsTake b
  | .rangeN _ b | .ngRangeN _ b | .rangeNM _ _ b | .ngRangeNM _ _ b => takes b && repsTake b
end

/-- from `st` the machine comes to a `check_stack` with the stack `S`, or ends -/
def Halts (env : Env) (st : State) (S : List Elem) : Prop :=
  ∃ k o, ((∃ b m, o = pop b m S) ∨ ∃ r, o = .inr r) ∧ ∀ fuel, run env (fuel + k) st = cont env fuel o

/-- so from a configuration, whatever the memory -/
def T (env : Env) (c : Cfg) : Prop := ∀ m S, Halts env ⟨c, none, m, S⟩ S

theorem halts_pop {env : Env} {st : State} {b : Bool} {m : Mem} {S : List Elem} (h : step env st = pop b m S) : Halts env st S :=
  ⟨1, _, Or.inl ⟨b, m, rfl⟩, fun fuel => by rw [run_succ, h]⟩

theorem halts_end {env : Env} {st : State} {r : End × Mem} {S : List Elem} (h : step env st = .inr r) : Halts env st S :=
  ⟨1, _, Or.inr ⟨r, rfl⟩, fun fuel => by rw [run_succ, h]⟩

theorem halts_step {env : Env} {st st1 : State} {S : List Elem} (h : step env st = .inl st1) (h1 : Halts env st1 S) : Halts env st S := by
  obtain ⟨k, o, ho, hr⟩ := h1
  exact ⟨k + 1, o, ho, fun fuel => by rw [← Nat.add_assoc, run_succ, h]; exact hr fuel⟩

theorem halts_bind {env : Env} {st : State} {E : Elem} {S : List Elem} (h : Halts env st (E :: S))
    (h2 : ∀ (b : Bool) m, Halts env ⟨E.c, some (if b then E.t else E.f), m, S⟩ S) : Halts env st S := by
  obtain ⟨k, o, ho, hr⟩ := h
  rcases ho with ⟨b, m, rfl⟩ | ⟨r, rfl⟩
  · obtain ⟨k2, o2, ho2, hr2⟩ := h2 b m
    exact ⟨k2 + k, o2, ho2, fun fuel => by rw [← Nat.add_assoc, hr]; exact hr2 fuel⟩
  · exact ⟨k, _, Or.inr ⟨r, rfl⟩, hr⟩

/-- a round that calls `c1` and goes on as its actions say -/
theorem halts_call {env : Env} {st : State} {c1 : Cfg} {m1 : Mem} {t f : Act} {S : List Elem}
    (h : step env st = .inl ⟨c1, none, m1, ⟨st.c, t, f⟩ :: S⟩) (h1 : T env c1) (ht : ∀ m, Halts env ⟨st.c, some t, m, S⟩ S)
    (hf : ∀ m, Halts env ⟨st.c, some f, m, S⟩ S) : Halts env st S :=
  halts_step h (halts_bind (h1 _ _) fun b m => by cases b; exact hf m; exact ht m)

/-! ## Tests do not go back -/

/-- the test goes forward, strictly if `s`, and not beyond the end -/
def Adv (H q : Int) (s : Bool) (c : Chk) : Prop := ∀ q', c = .yes q' → q ≤ q' ∧ q' ≤ H ∧ (s = true → q < q')

theorem adv_eat (env : Env) (q : Int) (f : Nat → Bool) (s : Bool) : Adv env.stop q s (eat env q f) := by
  intro q' h
  unfold eat at h
  split at h
  · cases h
  · split at h
    · cases h
    · split at h
      · cases h; refine ⟨by omega, by omega, fun _ => by omega⟩
      · cases h

theorem adv_hold (H q : Int) (hq : q ≤ H) (b : Bool) : Adv H q false (hold q b) := by
  intro q' h
  unfold hold at h
  split at h
  · cases h; exact ⟨Int.le_refl _, hq, by simp⟩
  · cases h

theorem adv_holdO (H q : Int) (hq : q ≤ H) (b : Option Bool) : Adv H q false (holdO q b) := by
  cases b with
  | none => intro q' h; cases h
  | some b => exact adv_hold H q hq b

theorem adv_meta (env : Env) (k : Meta) (q : Int) (hq : q ≤ env.stop) : Adv env.stop q (charMeta k) (checkMeta env k q) := by
  cases k <;> simp only [checkMeta, charMeta] <;> first
    | exact adv_eat env q _ _
    | exact adv_holdO _ _ hq _
    | exact adv_hold _ _ hq _
    | (intro q' h; cases h; exact ⟨Int.le_refl _, hq, by simp⟩)
    | (intro q' h; cases h)
    | (split <;> first | exact adv_holdO _ _ hq _ | exact adv_hold _ _ hq _ | (intro q' h; cases h; exact ⟨Int.le_refl _, hq, by simp⟩))

theorem adv_cmp (env : Env) (guard : Bool) (src : Int → Option Nat) (eq : Nat → Nat → Bool) (n : Nat) : ∀ (i q q' : Int),
    (guard = false → q + n ≤ env.stop) → q ≤ env.stop → cmpLoop env guard src eq n i q = .yes q' → q' = q + n ∧ q' ≤ env.stop := by
  induction n with
  | zero => intro i q q' _ hq h; simp only [cmpLoop] at h; cases h; constructor <;> omega
  | succ n ih =>
    intro i q q' hg hq h
    rw [cmpLoop] at h
    split at h
    · cases h
    · rename_i hn
      have hlt : q + 1 ≤ env.stop := by
        cases guard with
        | true => simp at hn; omega
        | false => have := hg rfl; push_cast at this; omega
      split at h
      · split at h
        · have := ih (i + 1) (q + 1) q' (fun hgf => by have := hg hgf; push_cast at this ⊢; omega) hlt h
          push_cast
          omega
        · cases h
      · cases h

theorem adv_word (env : Env) (w : Text) (q : Int) (hq : q ≤ env.stop) : Adv env.stop q (!w.isEmpty) (checkWord env w q) := by
  intro q' h
  have hw : (!w.isEmpty) = true → 0 < w.length := by cases w <;> simp
  unfold checkWord at h
  split at h
  · cases h
  · split at h
    · split at h
      · split at h
        · cases h; refine ⟨by omega, by omega, fun hh => by have := hw hh; omega⟩
        · cases h
      · cases h
    · have := adv_cmp env false _ _ _ _ _ _ (by intro _; omega) hq h
      refine ⟨by omega, by omega, fun hh => by have := hw hh; omega⟩

theorem adv_ref (env : Env) (t : Text) (eq : Nat → Nat → Bool) (a b q : Int) (hq : q ≤ env.stop) : Adv env.stop q false (refLoop env t eq a b q) := by
  intro q' h
  have := adv_cmp env true _ _ _ _ _ _ (by simp) hq h
  refine ⟨by omega, by omega, by simp⟩

theorem adv_trace (env : Env) (x y : Bool) (k : Nat) (q : Int) (hq : q ≤ env.stop) : Adv env.stop q false (checkTrace env x y k q) := by
  unfold checkTrace
  split
  · intro q' h; cases h
  · exact adv_ref _ _ _ _ _ _ hq

theorem adv_own (env : Env) (k : Nat) (s e : Nat → Int) (n : Nat) (q : Int) (hq : q ≤ env.stop) : Adv env.stop q false (checkRef env k s e n q) := by
  unfold checkRef
  split
  · intro q' h; cases h
  · split
    · intro q' h; cases h
    · exact adv_ref _ _ _ _ _ _ hq

/-! ## Nodes -/

theorem T_test {env : Env} {n : Node} {ns : List Node} {up : List (List Node)} {q : Int} {s : Bool}
    (hn : ∀ m, ∃ c m', execNode env n ns up true q m = (tested ns up c, m') ∧ Adv env.stop q s c)
    (hk : ∀ q', q ≤ q' → q' ≤ env.stop → (s = true → q < q') → T env ⟨ns :: up, true, q'⟩) : T env ⟨(n :: ns) :: up, true, q⟩ := by
  intro m S
  obtain ⟨c, m', hc, ha⟩ := hn m
  cases c with
  | no => exact halts_pop (b := false) (m := m') (by simp only [step, exec, hc, tested])
  | oob => exact halts_end (r := (.oob, m')) (by simp only [step, exec, hc, tested])
  | yes q' =>
    obtain ⟨h1, h2, h3⟩ := ha q' rfl
    exact halts_step (st1 := ⟨⟨ns :: up, true, q'⟩, none, m', S⟩) (by simp only [step, exec, hc, tested]) (hk q' h1 h2 h3 _ _)

theorem T_goto {env : Env} {c c1 : Cfg} (hn : ∀ m, ∃ m', exec env c m = (.goto c1, m')) (hk : T env c1) : T env c := by
  intro m S
  obtain ⟨m', hc⟩ := hn m
  exact halts_step (st1 := ⟨c1, none, m', S⟩) (by simp only [step, hc]) (hk _ _)

theorem T_nil {env : Env} {up : List (List Node)} {q : Int} (hk : T env ⟨up, false, q⟩) : T env ⟨[] :: up, true, q⟩ :=
  T_goto (fun m => ⟨m, rfl⟩) hk

/-- the actions of a node after which the stack is popped -/
theorem halts_act {env : Env} {n : Node} {ns : List Node} {up : List (List Node)} {l : Bool} {q : Int} {S : List Elem} (a : Act)
    (ha : a = .no ∨ a = .yes ∨ a = .rangeNM3 ∨ a = .ngRangeNM3) (m : Mem) : Halts env ⟨⟨(n :: ns) :: up, l, q⟩, some a, m, S⟩ S := by
  rcases ha with rfl | rfl | rfl | rfl
  · exact halts_pop (b := false) (m := m) (by simp only [step, resume])
  · exact halts_pop (b := true) (m := m) (by simp only [step, resume])
  · exact halts_pop (b := false) (by simp only [step, resume]; rfl)
  · exact halts_pop (b := false) (by simp only [step, resume]; rfl)

theorem halts_brk {env : Env} {n : Node} {ns : List Node} {up : List (List Node)} {l : Bool} {q : Int} {S : List Elem}
    (hk : T env ⟨ns :: up, true, q⟩) (m : Mem) : Halts env ⟨⟨(n :: ns) :: up, l, q⟩, some .brk, m, S⟩ S :=
  halts_step (st1 := ⟨⟨ns :: up, true, q⟩, none, m, S⟩) (by simp only [step, resume]) (hk _ _)

/-- what a repetition may do: go on behind it or into its body, or call one of them with actions of the same kind -/
theorem T_range {env : Env} {n : Node} {ns : List Node} {up : List (List Node)} {l : Bool} {q : Int}
    (hx : ∀ m, ∃ m', (execNode env n ns up l q m = (.goto ⟨n.body :: (n :: ns) :: up, true, q⟩, m')) ∨
      (execNode env n ns up l q m = (.goto ⟨ns :: up, true, q⟩, m')) ∨
      (∃ f, (f = .rangeN2 ∨ f = .rangeNM2) ∧ execNode env n ns up l q m = (.call ⟨n.body :: (n :: ns) :: up, true, q⟩ .yes f, m')) ∨
      (∃ f, (f = .no ∨ f = .ngRangeN2 ∨ f = .ngRangeNM2) ∧ execNode env n ns up l q m = (.call ⟨ns :: up, true, q⟩ .yes f, m')))
    (hb : T env ⟨n.body :: (n :: ns) :: up, true, q⟩) (hk : T env ⟨ns :: up, true, q⟩) : T env ⟨(n :: ns) :: up, l, q⟩ := by
  intro m S
  obtain ⟨m', h | h | ⟨f, hf, h⟩ | ⟨f, hf, h⟩⟩ := hx m
  · exact halts_step (st1 := ⟨⟨n.body :: (n :: ns) :: up, true, q⟩, none, m', S⟩) (by simp only [step, exec, h]) (hb _ _)
  · exact halts_step (st1 := ⟨⟨ns :: up, true, q⟩, none, m', S⟩) (by simp only [step, exec, h]) (hk _ _)
  · refine halts_call (m1 := m') (t := .yes) (f := f) (by simp only [step, exec, h]) hb (halts_act _ (by simp)) fun m2 => ?_
    rcases hf with rfl | rfl
    · exact halts_call (m1 := m2) (t := .yes) (f := .no) (by simp only [step, resume]) hk (halts_act _ (by simp)) (halts_act _ (by simp))
    · exact halts_call (m1 := m2) (t := .yes) (f := .rangeNM3) (by simp only [step, resume]) hk (halts_act _ (by simp)) (halts_act _ (by simp))
  · refine halts_call (m1 := m') (t := .yes) (f := f) (by simp only [step, exec, h]) hk (halts_act _ (by simp)) fun m2 => ?_
    rcases hf with rfl | rfl | rfl
    · exact halts_act _ (by simp) _
    · exact halts_step (by simp only [step, resume]; rfl) (hb _ _)
    · exact halts_call (m1 := m2) (t := .yes) (f := .ngRangeNM3) (by simp only [step, resume]) hb (halts_act _ (by simp)) (halts_act _ (by simp))

theorem rangeN_acts (env : Env) (s : Int) (b ns : List Node) (up : List (List Node)) (l : Bool) (q : Int) (m : Mem) :
    ∃ m', (execNode env (.rangeN s b) ns up l q m = (.goto ⟨b :: (.rangeN s b :: ns) :: up, true, q⟩, m')) ∨
      (execNode env (.rangeN s b) ns up l q m = (.goto ⟨ns :: up, true, q⟩, m') ∧ (l = true → s = 0)) ∨
      (execNode env (.rangeN s b) ns up l q m = (.call ⟨b :: (.rangeN s b :: ns) :: up, true, q⟩ .yes .rangeN2, m') ∧ (l = true → s = 0)) := by
  simp only [execNode, execRangeN]
  split
  · rename_i h
    exact ⟨_, Or.inr (Or.inl ⟨rfl, fun hl => by subst hl; exact h.1⟩)⟩
  · split
    · rename_i h
      exact ⟨_, Or.inr (Or.inr ⟨rfl, fun hl => by subst hl; exact h⟩)⟩
    · exact ⟨_, Or.inl rfl⟩

theorem ngRangeN_acts (env : Env) (s : Int) (b ns : List Node) (up : List (List Node)) (l : Bool) (q : Int) (m : Mem) :
    ∃ m', (execNode env (.ngRangeN s b) ns up l q m = (.goto ⟨b :: (.ngRangeN s b :: ns) :: up, true, q⟩, m')) ∨
      (execNode env (.ngRangeN s b) ns up l q m = (.goto ⟨ns :: up, true, q⟩, m') ∧ (l = true → s = 0)) ∨
      (execNode env (.ngRangeN s b) ns up l q m = (.call ⟨ns :: up, true, q⟩ .yes .ngRangeN2, m') ∧ (l = true → s = 0)) := by
  simp only [execNode, execNGRangeN]
  split
  · rename_i h
    exact ⟨_, Or.inr (Or.inl ⟨rfl, fun hl => by subst hl; exact h.1⟩)⟩
  · split
    · rename_i h
      exact ⟨_, Or.inr (Or.inr ⟨rfl, fun hl => by subst hl; exact h⟩)⟩
    · exact ⟨_, Or.inl rfl⟩

theorem rangeNM_acts (ns : List Node) (up : List (List Node)) (n : Node) (s e : Int) (b : List Node) (z l : Bool) (q : Int) (m : Mem) :
    ∃ m', (execRangeNM ns up n s e b z l q m = (.goto ⟨b :: (n :: ns) :: up, true, q⟩, m')) ∨
      (execRangeNM ns up n s e b z l q m = (.call ⟨ns :: up, true, q⟩ .yes .no, m') ∧ (l = true → s = 0)) ∨
      (execRangeNM ns up n s e b z l q m = (.call ⟨ns :: up, true, q⟩ .yes .ngRangeNM2, m') ∧ (l = true → s = 0)) ∨
      (execRangeNM ns up n s e b z l q m = (.call ⟨b :: (n :: ns) :: up, true, q⟩ .yes .rangeNM2, m') ∧ (l = true → s = 0)) := by
  simp only [execRangeNM]
  split
  · rename_i h
    have h' : l = true → s = 0 := fun hl => by subst hl; exact h
    split
    · exact ⟨_, Or.inr (Or.inl ⟨rfl, h'⟩)⟩
    · split
      · exact ⟨_, Or.inr (Or.inr (Or.inl ⟨rfl, h'⟩))⟩
      · exact ⟨_, Or.inr (Or.inr (Or.inr ⟨rfl, h'⟩))⟩
  · exact ⟨_, Or.inl rfl⟩

/-- a chain ends if what follows it does -/
def ChainT (env : Env) (L : List Node) : Prop := ∀ up q, q ≤ env.stop →
  (∀ q', q ≤ q' → q' ≤ env.stop → (takes L = true → q < q') → T env ⟨up, false, q'⟩) → T env ⟨L :: up, true, q⟩

/-- a node with its acts as above -/
def RangeActs (env : Env) (n : Node) : Prop := ∀ ns up l q m,
  ∃ m', (execNode env n ns up l q m = (.goto ⟨n.body :: (n :: ns) :: up, true, q⟩, m')) ∨
    (execNode env n ns up l q m = (.goto ⟨ns :: up, true, q⟩, m')) ∨
    (∃ f, (f = .rangeN2 ∨ f = .rangeNM2) ∧ execNode env n ns up l q m = (.call ⟨n.body :: (n :: ns) :: up, true, q⟩ .yes f, m')) ∨
    (∃ f, (f = .no ∨ f = .ngRangeN2 ∨ f = .ngRangeNM2) ∧ execNode env n ns up l q m = (.call ⟨ns :: up, true, q⟩ .yes f, m'))

/-- coming to a repetition from its body -/
theorem range_again {env : Env} {n : Node} (ha : RangeActs env n) (hb : ChainT env n.body) (ht : takes n.body = true) (ns : List Node)
    (up : List (List Node)) (l : Bool) (q0 : Int) (hk : ∀ q, q0 ≤ q → q ≤ env.stop → T env ⟨ns :: up, true, q⟩) (d : Nat) :
    ∀ q, (env.stop - q).toNat = d → q0 ≤ q → q ≤ env.stop → T env ⟨(n :: ns) :: up, l, q⟩ := by
  induction d using Nat.strongRecOn generalizing l with
  | _ d ih =>
    intro q hd h0 h1
    refine T_range (ha ns up l q) ?_ (hk q h0 h1)
    refine hb _ _ h1 fun q' h2 h3 h4 => ?_
    have := h4 ht
    exact ih (env.stop - q').toNat (by omega) false q' rfl (by omega) h3

/-- a repetition: `t` says that it takes a character -/
theorem range_node {env : Env} {n : Node} {t : Bool} (ha : RangeActs env n) (hb : ChainT env n.body) (ht : takes n.body = true)
    (hs : t = true → ∀ ns up q m, ∃ m', execNode env n ns up true q m = (.goto ⟨n.body :: (n :: ns) :: up, true, q⟩, m')) {ns : List Node}
    {up : List (List Node)} {q : Int} (h1 : q ≤ env.stop)
    (hk : ∀ q', q ≤ q' → q' ≤ env.stop → (t = true → q < q') → T env ⟨ns :: up, true, q'⟩) : T env ⟨(n :: ns) :: up, true, q⟩ := by
  cases t with
  | false => exact range_again ha hb ht ns up true q (fun q' h2 h3 => hk q' h2 h3 (by simp)) _ q rfl (Int.le_refl _) h1
  | true =>
    refine T_goto (c1 := ⟨n.body :: (n :: ns) :: up, true, q⟩) (fun m => ?_) ?_
    · exact hs rfl ns up q m
    · refine hb _ _ h1 fun q' h2 h3 h4 => ?_
      have := h4 ht
      exact range_again ha hb ht ns up false q' (fun q2 h5 h6 => hk q2 (by omega) h6 (fun _ => by omega)) _ q' rfl (Int.le_refl _) h3

theorem rangeN_ra (env : Env) (s : Int) (b : List Node) : RangeActs env (.rangeN s b) := by
  intro ns up l q m
  obtain ⟨m', h | h | h⟩ := rangeN_acts env s b ns up l q m
  · exact ⟨m', Or.inl h⟩
  · exact ⟨m', Or.inr (Or.inl h.1)⟩
  · exact ⟨m', Or.inr (Or.inr (Or.inl ⟨_, Or.inl rfl, h.1⟩))⟩

theorem ngRangeN_ra (env : Env) (s : Int) (b : List Node) : RangeActs env (.ngRangeN s b) := by
  intro ns up l q m
  obtain ⟨m', h | h | h⟩ := ngRangeN_acts env s b ns up l q m
  · exact ⟨m', Or.inl h⟩
  · exact ⟨m', Or.inr (Or.inl h.1)⟩
  · exact ⟨m', Or.inr (Or.inr (Or.inr ⟨_, Or.inr (Or.inl rfl), h.1⟩))⟩

theorem rangeNM_ra (env : Env) (s e : Int) (b : List Node) : RangeActs env (.rangeNM s e b) := by
  intro ns up l q m
  obtain ⟨m', h | h | h | h⟩ := rangeNM_acts ns up (.rangeNM s e b) s e b false l q m
  · exact ⟨m', Or.inl h⟩
  · exact ⟨m', Or.inr (Or.inr (Or.inr ⟨_, Or.inl rfl, h.1⟩))⟩
  · exact ⟨m', Or.inr (Or.inr (Or.inr ⟨_, Or.inr (Or.inr rfl), h.1⟩))⟩
  · exact ⟨m', Or.inr (Or.inr (Or.inl ⟨_, Or.inr rfl, h.1⟩))⟩

theorem ngRangeNM_ra (env : Env) (s e : Int) (b : List Node) : RangeActs env (.ngRangeNM s e b) := by
  intro ns up l q m
  obtain ⟨m', h | h | h | h⟩ := rangeNM_acts ns up (.ngRangeNM s e b) s e b true l q m
  · exact ⟨m', Or.inl h⟩
  · exact ⟨m', Or.inr (Or.inr (Or.inr ⟨_, Or.inl rfl, h.1⟩))⟩
  · exact ⟨m', Or.inr (Or.inr (Or.inr ⟨_, Or.inr (Or.inr rfl), h.1⟩))⟩
  · exact ⟨m', Or.inr (Or.inr (Or.inl ⟨_, Or.inr rfl, h.1⟩))⟩

/-- a look-around succeeds at the end of its body -/
theorem T_look {env : Env} {n : Node} (hn : ∀ ns up q m, execNode env n ns up false q m = (.succ, m)) (ns : List Node) (up : List (List Node)) (q : Int) :
    T env ⟨(n :: ns) :: up, false, q⟩ := by
  intro m S
  exact halts_pop (b := true) (m := m) (by simp only [step, exec, hn])

theorem look_node {env : Env} {n : Node} (hn : ∀ ns up q m, execNode env n ns up false q m = (.succ, m)) {ns : List Node} {up : List (List Node)} {q q1 : Int}
    (t f : Act) (htf : (t = .brk ∧ f = .no) ∨ (t = .no ∧ f = .brk)) (h1 : q1 ≤ env.stop)
    (hx : ∀ m, execNode env n ns up true q m = (.call ⟨n.body :: (n :: ns) :: up, true, q1⟩ t f, m)) (hb : ChainT env n.body)
    (hk : T env ⟨ns :: up, true, q⟩) : T env ⟨(n :: ns) :: up, true, q⟩ := by
  intro m S
  refine halts_call (m1 := m) (t := t) (f := f) (by simp only [step, exec, hx]) (hb _ _ h1 fun q' _ _ _ => T_look hn ns up q') ?_ ?_
  · rcases htf with ⟨rfl, rfl⟩ | ⟨rfl, rfl⟩
    · exact halts_brk hk
    · exact halts_act _ (by simp)
  · rcases htf with ⟨rfl, rfl⟩ | ⟨rfl, rfl⟩
    · exact halts_act _ (by simp)
    · exact halts_brk hk

/-- a node that is not an alternative -/
def NodeT (env : Env) (n : Node) : Prop := ∀ ns up q, q ≤ env.stop →
  (∀ q', q ≤ q' → q' ≤ env.stop → (takesN n = true → q < q') → T env ⟨ns :: up, true, q'⟩) → T env ⟨(n :: ns) :: up, true, q⟩

theorem chain_cons {env : Env} {n : Node} {ns : List Node} (ho : isOr n = false) (hn : NodeT env n) (hns : ChainT env ns) : ChainT env (n :: ns) := by
  intro up q h1 hk
  refine hn ns up q h1 fun q1 h2 h3 h4 => ?_
  refine hns up q1 h3 fun q2 h5 h6 h7 => ?_
  refine hk q2 (by omega) h6 fun ht => ?_
  simp only [takes, ho, Bool.false_eq_true, if_false, Bool.or_eq_true] at ht
  rcases ht with ht | ht
  · have := h4 ht; omega
  · have := h7 ht; omega

theorem chain_or {env : Env} {b ns : List Node} (hb : ChainT env b) (hns : ChainT env ns) : ChainT env (.or b :: ns) := by
  intro up q h1 hk m S
  have ht : takes (.or b :: ns) = (takes b && takes ns) := by simp [takes, isOr, takesN]
  refine halts_call (c1 := ⟨b :: (.or b :: ns) :: up, true, q⟩) (m1 := m) (t := .yes) (f := .brk) (by simp only [step, exec, execNode, if_true]) ?_
    (halts_act _ (by simp)) (halts_brk ?_)
  · refine hb _ _ h1 fun q' h2 h3 h4 => T_goto (c1 := ⟨up, false, q'⟩) (fun m => ⟨m, by simp [exec, execNode]⟩) ?_
    exact hk q' h2 h3 fun h => by rw [ht, Bool.and_eq_true] at h; exact h4 h.1
  · exact hns up q h1 fun q' h2 h3 h4 => hk q' h2 h3 fun h => by rw [ht, Bool.and_eq_true] at h; exact h4 h.2

theorem bracket_node {env : Env} {n : Node} (hb : ChainT env n.body) (ht : takesN n = takes n.body)
    (hl : ∀ ns up q m, ∃ m', execNode env n ns up true q m = (.goto ⟨n.body :: (n :: ns) :: up, true, q⟩, m'))
    (hr : ∀ ns up q m, ∃ m', execNode env n ns up false q m = (.goto ⟨ns :: up, true, q⟩, m')) : NodeT env n := by
  intro ns up q h1 hk
  refine T_goto (c1 := ⟨n.body :: (n :: ns) :: up, true, q⟩) (hl ns up q) (hb _ _ h1 fun q' h2 h3 h4 => ?_)
  exact T_goto (c1 := ⟨ns :: up, true, q'⟩) (hr ns up q') (hk q' h2 h3 fun h => h4 (ht ▸ h))

theorem chain_nil (env : Env) : ChainT env [] := fun _ q h1 hk => T_nil (hk q (Int.le_refl _) h1 (by simp [takes]))

mutual
theorem chain_ends (env : Env) : ∀ (L : List Node), repsTake L = true → ChainT env L
  | [], _ => chain_nil env
  | n :: ns, h => by
    have h' : repsTakeN n = true ∧ repsTake ns = true := by simpa [repsTake] using h
    have hb := body_ends env n h'.1
    have hns := chain_ends env ns h'.2
    cases ho : isOr n with
    | false => exact chain_cons ho (hb.1 ho) hns
    | true =>
      cases n with
      | or b => exact chain_or hb.2 hns
      | _ => cases ho
theorem body_ends (env : Env) : ∀ (n : Node), repsTakeN n = true → (isOr n = false → NodeT env n) ∧ ChainT env n.body
  | .empty, _ => ⟨fun _ _ _ q h1 hk => T_goto (fun m => ⟨m, rfl⟩) (hk q (Int.le_refl _) h1 (by simp [takesN])), chain_nil env⟩
  | .msym k, _ => ⟨fun _ ns up q h1 hk => T_test (s := takesN (.msym k)) (fun m => ⟨_, _, rfl, adv_meta env k q h1⟩) hk, chain_nil env⟩
  | .symb c, _ => ⟨fun _ ns up q h1 hk => T_test (s := true) (fun m => ⟨_, _, rfl, adv_eat env q _ _⟩) hk, chain_nil env⟩
  | .word w, _ => ⟨fun _ ns up q h1 hk => T_test (s := takesN (.word w)) (fun m => ⟨_, _, rfl, adv_word env w q h1⟩) hk, chain_nil env⟩
  | .enum c, _ => ⟨fun _ ns up q h1 hk => T_test (s := true) (fun m => ⟨_, _, rfl, adv_eat env q _ _⟩) hk, chain_nil env⟩
  | .nenum c, _ => ⟨fun _ ns up q h1 hk => T_test (s := true) (fun m => ⟨_, _, rfl, adv_eat env q _ _⟩) hk, chain_nil env⟩
  | .bkTrace k, _ => ⟨fun _ ns up q h1 hk => T_test (s := false) (fun m => ⟨_, _, rfl, adv_trace env _ _ k q h1⟩) hk, chain_nil env⟩
  | .bkTraceN k, _ => ⟨fun _ ns up q h1 hk => T_test (s := false) (fun m => ⟨_, _, rfl, adv_trace env _ _ k q h1⟩) hk, chain_nil env⟩
  | .bkTraceName k, _ => ⟨fun _ ns up q h1 hk => T_test (s := false) (fun m => ⟨_, _, rfl, adv_trace env _ _ k q h1⟩) hk, chain_nil env⟩
  | .bkTraceNName k, _ => ⟨fun _ ns up q h1 hk => T_test (s := false) (fun m => ⟨_, _, rfl, adv_trace env _ _ k q h1⟩) hk, chain_nil env⟩
  | .bkBrack k, _ => ⟨fun _ ns up q h1 hk => T_test (s := false) (fun m => ⟨_, _, rfl, adv_own env _ _ _ k q h1⟩) hk, chain_nil env⟩
  | .bkBrackName k, _ => ⟨fun _ ns up q h1 hk => T_test (s := false) (fun m => ⟨_, _, rfl, adv_own env _ _ _ k q h1⟩) hk, chain_nil env⟩
  | .brackets i b, h => by
    have hb := chain_ends env b (by simpa [repsTakeN] using h)
    refine ⟨fun _ => bracket_node hb rfl (fun ns up q m => ⟨_, by simp only [execNode, if_true]; rfl⟩) fun ns up q m => ?_, hb⟩
    cases i with
    | none => exact ⟨m, by simp [execNode]⟩
    | some i => exact ⟨_, by simp only [execNode, Bool.false_eq_true, if_false]; rfl⟩
  | .named i b, h => by
    have hb := chain_ends env b (by simpa [repsTakeN] using h)
    refine ⟨fun _ => bracket_node hb rfl (fun ns up q m => ⟨_, by simp only [execNode, if_true]; rfl⟩) fun ns up q m => ?_, hb⟩
    cases i with
    | none => exact ⟨m, by simp [execNode]⟩
    | some i => exact ⟨_, by simp only [execNode, Bool.false_eq_true, if_false]; rfl⟩
  | .or b, h => ⟨fun ho => (by cases ho), chain_ends env b (by simpa [repsTakeN] using h)⟩
  | .ahead b, h => by
    have hb := chain_ends env b (by simpa [repsTakeN] using h)
    exact ⟨fun _ ns up q h1 hk => look_node (fun ns up q m => by simp [execNode]) _ _ (Or.inl ⟨rfl, rfl⟩) h1 (fun m => by simp only [execNode, if_true]; rfl) hb
      (hk q (Int.le_refl _) h1 (by simp [takesN])), hb⟩
  | .nahead b, h => by
    have hb := chain_ends env b (by simpa [repsTakeN] using h)
    exact ⟨fun _ ns up q h1 hk => look_node (fun ns up q m => by simp [execNode]) _ _ (Or.inr ⟨rfl, rfl⟩) h1 (fun m => by simp only [execNode, if_true]; rfl) hb
      (hk q (Int.le_refl _) h1 (by simp [takesN])), hb⟩
  | .behind k b, h => by
    have hb := chain_ends env b (by simpa [repsTakeN] using h)
    refine ⟨fun _ ns up q h1 hk => ?_, hb⟩
    by_cases hq : q - k < 0
    · intro m S
      exact halts_pop (b := false) (m := m) (by simp only [step, exec, execNode, if_true, if_pos hq])
    · exact look_node (q1 := q - k) (fun ns up q m => by simp [execNode]) _ _ (Or.inl ⟨rfl, rfl⟩) (by omega)
        (fun m => by simp only [execNode, if_true, if_neg hq]; rfl) hb (hk q (Int.le_refl _) h1 (by simp [takesN]))
  | .nbehind k b, h => by
    have hb := chain_ends env b (by simpa [repsTakeN] using h)
    refine ⟨fun _ ns up q h1 hk => ?_, hb⟩
    by_cases hq : q - k ≥ 0
    · exact look_node (q1 := q - k) (fun ns up q m => by simp [execNode]) _ _ (Or.inr ⟨rfl, rfl⟩) (by omega)
        (fun m => by simp only [execNode, if_true, if_pos hq]; rfl) hb (hk q (Int.le_refl _) h1 (by simp [takesN]))
    · exact T_goto (fun m => ⟨m, by simp only [exec, execNode, if_true, if_neg hq]⟩) (hk q (Int.le_refl _) h1 (by simp [takesN]))
  | .rangeN s b, h => by
    have h' : takes b = true ∧ repsTake b = true := by simpa [repsTakeN] using h
    have hb := chain_ends env b h'.2
    refine ⟨fun _ ns up q h1 hk => range_node (rangeN_ra env s b) hb h'.1 (fun ht ns up q m => ?_) h1 hk, hb⟩
    have hs : s ≠ 0 := by intro h0; simp [takesN, h0] at ht
    obtain ⟨m', hx | hx | hx⟩ := rangeN_acts env s b ns up true q m
    · exact ⟨m', hx⟩
    · exact absurd (hx.2 rfl) hs
    · exact absurd (hx.2 rfl) hs
  | .ngRangeN s b, h => by
    have h' : takes b = true ∧ repsTake b = true := by simpa [repsTakeN] using h
    have hb := chain_ends env b h'.2
    refine ⟨fun _ ns up q h1 hk => range_node (ngRangeN_ra env s b) hb h'.1 (fun ht ns up q m => ?_) h1 hk, hb⟩
    have hs : s ≠ 0 := by intro h0; simp [takesN, h0] at ht
    obtain ⟨m', hx | hx | hx⟩ := ngRangeN_acts env s b ns up true q m
    · exact ⟨m', hx⟩
    · exact absurd (hx.2 rfl) hs
    · exact absurd (hx.2 rfl) hs
  | .rangeNM s e b, h => by
    have h' : takes b = true ∧ repsTake b = true := by simpa [repsTakeN] using h
    have hb := chain_ends env b h'.2
    refine ⟨fun _ ns up q h1 hk => range_node (rangeNM_ra env s e b) hb h'.1 (fun ht ns up q m => ?_) h1 hk, hb⟩
    have hs : s ≠ 0 := by intro h0; simp [takesN, h0] at ht
    obtain ⟨m', hx | hx | hx | hx⟩ := rangeNM_acts ns up (.rangeNM s e b) s e b false true q m
    · exact ⟨m', hx⟩
    all_goals exact absurd (hx.2 rfl) hs
  | .ngRangeNM s e b, h => by
    have h' : takes b = true ∧ repsTake b = true := by simpa [repsTakeN] using h
    have hb := chain_ends env b h'.2
    refine ⟨fun _ ns up q h1 hk => range_node (ngRangeNM_ra env s e b) hb h'.1 (fun ht ns up q m => ?_) h1 hk, hb⟩
    have hs : s ≠ 0 := by intro h0; simp [takesN, h0] at ht
    obtain ⟨m', hx | hx | hx | hx⟩ := rangeNM_acts ns up (.ngRangeNM s e b) s e b true true q m
    · exact ⟨m', hx⟩
    all_goals exact absurd (hx.2 rfl) hs
end

/-- one call of lowParse -/
theorem run_ends (env : Env) (body : List Node) (hb : repsTake body = true) (p : Int) (hp : p ≤ env.stop) (m : Mem) :
    ∃ k r, ∀ fuel, k ≤ fuel → run env fuel ⟨⟨[[.brackets (some 0) body]], true, p⟩, none, m, []⟩ = some r := by
  have h : ChainT env [.brackets (some 0) body] := chain_ends env _ (by simp [repsTake, repsTakeN, hb])
  have ht : T env ⟨[[.brackets (some 0) body]], true, p⟩ := by
    refine h [] p hp fun q' _ _ _ m S => ?_
    exact halts_pop (b := true) (m := m) (by simp only [step, exec])
  obtain ⟨k, o, ho, hr⟩ := ht m []
  rcases ho with ⟨b, m', rfl⟩ | ⟨r, rfl⟩
  · refine ⟨k, (.ret b, m'), fun fuel hf => ?_⟩
    obtain ⟨d, rfl⟩ : ∃ d, fuel = d + k := ⟨fuel - k, by omega⟩
    rw [hr d]; rfl
  · refine ⟨k, r, fun fuel hf => ?_⟩
    obtain ⟨d, rfl⟩ : ∃ d, fuel = d + k := ⟨fuel - k, by omega⟩
    rw [hr d]; rfl

theorem tries_ends (env : Env) (body : List Node) (hb : repsTake body = true) (keep : Bool) (n : Nat) : ∀ (p : Int) (m : Mem), p + n ≤ env.stop →
    ∃ k out, ∀ fuel, k ≤ fuel → tries env [[.brackets (some 0) body]] fuel keep n p m = some out := by
  induction n with
  | zero =>
    intro p m hp
    obtain ⟨k, r, hr⟩ := run_ends env body hb p (by omega) m
    obtain ⟨r, m1⟩ := r
    refine ⟨k, outOf r m1 keep, fun fuel hf => ?_⟩
    rw [tries.eq_def]
    dsimp only
    rw [hr fuel hf]
    rcases r with (_ | _) | _ <;> rfl
  | succ n ih =>
    intro p m hp
    obtain ⟨k, r, hr⟩ := run_ends env body hb p (by omega) m
    obtain ⟨r, m1⟩ := r
    obtain ⟨k2, out2, hr2⟩ := ih (p + 1) m1 (by omega)
    by_cases h : r = .ret false
    · subst h
      refine ⟨max k k2, out2, fun fuel hf => ?_⟩
      rw [tries.eq_def]
      dsimp only
      rw [hr fuel (by omega)]
      exact hr2 fuel (by omega)
    · refine ⟨k, outOf r m1 keep, fun fuel hf => ?_⟩
      rw [tries.eq_def]
      dsimp only
      rw [hr fuel (by omega)]
      rcases r with (_ | _) | _
      · exact absurd rfl h
      · rfl
      · rfl

/-- C51: `parse` returns, and after how many rounds it is looked at does not matter, for every expression in which each repeated part takes
a character at least, whatever the text, the characters' properties, the positions, the back trace, and the state earlier calls left in
the object and in the caller's structure. Missing: repetitions of parts that may match nothing, for which it is false. -/
theorem C51_matching_ends_partial (chars : Chars) (x : Expr) (o : Obj) (a : Args) (mtch : Matches) (hb : repsTake x.body = true) (h1 : a.pos ≤ a.eol) :
    ∃ k out, ∀ fuel, k ≤ fuel → parse chars x fuel o a mtch = some out := by
  obtain ⟨k, out, hr⟩ := tries_ends (envOf chars x a) x.body hb o.moves (if a.moves.getD o.moves then (a.eol - a.pos).toNat else 0) a.pos
    ⟨o.vars, clearMatches x mtch, o.startChange, o.endChange⟩ (by show _ ≤ a.eol; split <;> omega)
  unfold parse
  dsimp only
  by_cases hok : x.ok = false
  · exact ⟨0, _, fun fuel _ => by rw [if_pos hok]⟩
  · by_cases hm : a.moves.getD o.moves = true
    · refine ⟨k, out, fun fuel hf => ?_⟩
      rw [if_neg hok, if_pos hm]
      exact hr fuel hf
    · cases hq : quickCheck (envOf chars x a) (firstOf x.body) a.pos with
      | none => exact ⟨0, _, fun fuel _ => by rw [if_neg hok, if_neg hm]⟩
      | some b =>
        cases b with
        | false => exact ⟨0, _, fun fuel _ => by rw [if_neg hok, if_neg hm]⟩
        | true =>
          refine ⟨k, out, fun fuel hf => ?_⟩
          rw [if_neg hok, if_neg hm]
          exact hr fuel hf

end Verif.RegExp
