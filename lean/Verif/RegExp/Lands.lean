import Verif.RegExp.Spec

/-!
# Runs that come back to the stack

Framework for the proof of C29: a run from a configuration with the stack `S` *lands*: it pops `S`, reporting success or failure, with a
memory related to the one it began with.
-/
namespace Verif.RegExp

def cont (env : Env) (fuel : Nat) : State ⊕ (End × Mem) → Option (End × Mem)
  | .inl s => run env fuel s
  | .inr r => some r

theorem run_succ (env : Env) (fuel : Nat) (st : State) : run env (fuel + 1) st = cont env fuel (step env st) := by
  rw [run]; cases step env st <;> rfl

/-- from `st` the machine comes to `check_stack(b)` with the stack `S` -/
def Lands (env : Env) (st : State) (b : Bool) (S : List Elem) (Q : Mem → Prop) : Prop :=
  ∃ k m', Q m' ∧ ∀ fuel, run env (fuel + k) st = cont env fuel (pop b m' S)

/-- from `st` the machine comes to `st'` -/
def Reach (env : Env) (st st' : State) : Prop := ∃ k, ∀ fuel, run env (fuel + k) st = run env fuel st'

theorem lands_pop {env : Env} {st : State} {b : Bool} {m : Mem} {S : List Elem} {Q : Mem → Prop} (h : step env st = pop b m S) (hq : Q m) :
    Lands env st b S Q := ⟨1, m, hq, fun fuel => by rw [run_succ, h]⟩

theorem lands_step {env : Env} {st st1 : State} {b : Bool} {S : List Elem} {Q : Mem → Prop} (h : step env st = .inl st1)
    (h1 : Lands env st1 b S Q) : Lands env st b S Q := by
  obtain ⟨k, m', hq, hr⟩ := h1
  exact ⟨k + 1, m', hq, fun fuel => by rw [← Nat.add_assoc, run_succ, h]; exact hr fuel⟩

theorem lands_mono {env : Env} {st : State} {b : Bool} {S : List Elem} {Q Q' : Mem → Prop} (h : Lands env st b S Q) (hq : ∀ m, Q m → Q' m) :
    Lands env st b S Q' := by
  obtain ⟨k, m', h1, h2⟩ := h
  exact ⟨k, m', hq _ h1, h2⟩

theorem lands_bind {env : Env} {st : State} {E : Elem} {b1 b : Bool} {S : List Elem} {Q1 Q : Mem → Prop} (h : Lands env st b1 (E :: S) Q1)
    (h2 : ∀ m1, Q1 m1 → Lands env ⟨E.c, some (if b1 then E.t else E.f), m1, S⟩ b S Q) : Lands env st b S Q := by
  obtain ⟨k1, m1, hq1, hr1⟩ := h
  obtain ⟨k2, m2, hq2, hr2⟩ := h2 m1 hq1
  refine ⟨k2 + k1, m2, hq2, fun fuel => ?_⟩
  rw [← Nat.add_assoc, hr1]
  exact hr2 fuel

theorem reach_refl (env : Env) (st : State) : Reach env st st := ⟨0, fun _ => rfl⟩

theorem reach_step {env : Env} {st st1 st2 : State} (h : step env st = .inl st1) (h1 : Reach env st1 st2) : Reach env st st2 := by
  obtain ⟨k, hr⟩ := h1
  exact ⟨k + 1, fun fuel => by rw [← Nat.add_assoc, run_succ, h]; exact hr fuel⟩

theorem reach_trans {env : Env} {st st1 st2 : State} (h : Reach env st st1) (h1 : Reach env st1 st2) : Reach env st st2 := by
  obtain ⟨k, hr⟩ := h
  obtain ⟨k1, hr1⟩ := h1
  exact ⟨k1 + k, fun fuel => by rw [← Nat.add_assoc, hr, hr1]⟩

theorem lands_reach {env : Env} {st st1 : State} {b : Bool} {S : List Elem} {Q : Mem → Prop} (h : Reach env st st1) (h1 : Lands env st1 b S Q) :
    Lands env st b S Q := by
  obtain ⟨k, hr⟩ := h
  obtain ⟨k1, m', hq, hr1⟩ := h1
  exact ⟨k1 + k, m', hq, fun fuel => by rw [← Nat.add_assoc, hr, hr1]⟩

/-- a call that succeeds at once when the called part does, and goes on with `f` when it does not -/
theorem lands_alt {env : Env} {st : State} {c c' : Cfg} {n : Node} {ns : List Node} {up : List (List Node)} {f : Act} {m1 : Mem} {S : List Elem}
    {res1 res2 : Option Int} {Q1 Q : Mem → Prop} (hc : c.pos = (n :: ns) :: up)
    (hstep : step env st = .inl ⟨c', none, m1, ⟨c, .yes, f⟩ :: S⟩)
    (h1 : Lands env ⟨c', none, m1, ⟨c, .yes, f⟩ :: S⟩ res1.isSome (⟨c, .yes, f⟩ :: S) Q1)
    (hs : ∀ r m2, res1 = some r → Q1 m2 → Q m2)
    (hf : res1 = none → ∀ m2, Q1 m2 → Lands env ⟨c, some f, m2, S⟩ res2.isSome S Q) : Lands env st (res1.or res2).isSome S Q := by
  refine lands_step hstep (lands_bind h1 fun m2 hq => ?_)
  cases res1 with
  | none => exact hf rfl m2 hq
  | some r =>
    refine lands_pop (m := m2) ?_ (hs r m2 rfl hq)
    simp [step, resume, hc]

/-- the action `no` -/
theorem lands_no {env : Env} {c : Cfg} {n : Node} {ns : List Node} {up : List (List Node)} {m : Mem} {S : List Elem} {Q : Mem → Prop}
    (hc : c.pos = (n :: ns) :: up) (hq : Q m) : Lands env ⟨c, some .no, m, S⟩ false S Q := by
  refine lands_pop (m := m) ?_ hq
  simp [step, resume, hc]

/-! ## Regions of addresses -/

/-- the nodes at or below the node with the address `u` -/
def Sub (u a : Addr) : Prop := ∃ pre, a = pre ++ u

/-- the nodes of a chain of `N` nodes below the node with the address `u`, with all below them -/
def Reg (N : Nat) (u a : Addr) : Prop := ∃ pre k, a = pre ++ k :: u ∧ k ≤ N

theorem Sub.refl (u : Addr) : Sub u u := ⟨[], rfl⟩

theorem Reg.sub {N : Nat} {u a : Addr} (h : Reg N u a) : Sub u a := by
  obtain ⟨pre, k, rfl, -⟩ := h
  exact ⟨pre ++ [k], by simp⟩

theorem Reg.ne {N : Nat} {u a : Addr} (h : Reg N u a) : a ≠ u := by
  obtain ⟨pre, k, rfl, -⟩ := h
  intro h
  have := congrArg List.length h
  simp at this
  omega

theorem Sub.reg {N : Nat} {u a : Addr} (h : Sub ((N + 1) :: u) a) : Reg (N + 1) u a := by
  obtain ⟨pre, rfl⟩ := h
  exact ⟨pre, N + 1, rfl, Nat.le_refl _⟩

theorem Reg.mono {N M : Nat} {u a : Addr} (h : Reg N u a) (hm : N ≤ M) : Reg M u a := by
  obtain ⟨pre, k, h1, h2⟩ := h
  exact ⟨pre, k, h1, by omega⟩

theorem sub_not_reg {N : Nat} {u a : Addr} (h : Sub ((N + 1) :: u) a) : ¬ Reg N u a := by
  obtain ⟨pre, rfl⟩ := h
  rintro ⟨pre', k, h1, h2⟩
  have h3 := List.append_inj' h1 rfl
  have h4 := h3.2
  simp at h4
  omega

theorem reg_succ {N : Nat} {u a : Addr} : Reg (N + 1) u a ↔ Sub ((N + 1) :: u) a ∨ Reg N u a := by
  constructor
  · rintro ⟨pre, k, rfl, h⟩
    by_cases hk : k = N + 1
    · subst hk; exact Or.inl ⟨pre, rfl⟩
    · exact Or.inr ⟨pre, k, rfl, by omega⟩
  · rintro (h | h)
    · exact h.reg
    · exact h.mono (by omega)

theorem addr_cons (n : Node) (ns : List Node) (up : List (List Node)) : addr ((n :: ns) :: up) = (ns.length + 1) :: addr up := rfl

/-! ## Relations between memories -/

/-- what must hold of the counter and of `oldParse` of a node -/
abbrev Sok := Addr → Int → Int → Prop

/-- the effect of a run that failed: fields outside `T` as before; the counter and `oldParse` of every node as before, or as `sok` says -/
structure Link (T : Addr → Prop) (sok : Sok) (m m' : Mem) : Prop where
  frame : ∀ a, ¬ T a → m'.vars a = m.vars a
  ok : ∀ a, ((m'.vars a).p0 = (m.vars a).p0 ∧ (m'.vars a).old = (m.vars a).old) ∨ sok a (m'.vars a).p0 (m'.vars a).old

/-- the effect of a run with the result `res` -/
structure Post (T : Addr → Prop) (sok : Sok) (Fin : Int → Mem → Prop) (m : Mem) (res : Option Int) (m' : Mem) : Prop where
  frame : ∀ a, ¬ T a → m'.vars a = m.vars a
  ok : res = none → ∀ a, ((m'.vars a).p0 = (m.vars a).p0 ∧ (m'.vars a).old = (m.vars a).old) ∨ sok a (m'.vars a).p0 (m'.vars a).old
  fin : ∀ r, res = some r → Fin r m'

theorem Link.refl (T : Addr → Prop) (sok : Sok) (m : Mem) : Link T sok m m := ⟨fun _ _ => rfl, fun _ => Or.inl ⟨rfl, rfl⟩⟩

theorem Link.trans {T : Addr → Prop} {sok : Sok} {m m1 m2 : Mem} (h : Link T sok m m1) (h1 : Link T sok m1 m2) : Link T sok m m2 := by
  refine ⟨fun a ha => (h1.frame a ha).trans (h.frame a ha), fun a => ?_⟩
  rcases h1.ok a with ⟨e1, e2⟩ | e
  · rcases h.ok a with ⟨f1, f2⟩ | f
    · exact Or.inl ⟨e1.trans f1, e2.trans f2⟩
    · right; rw [e1, e2]; exact f
  · exact Or.inr e

theorem Link.mono {T T' : Addr → Prop} {sok : Sok} {m m1 : Mem} (h : Link T sok m m1) (ht : ∀ a, T a → T' a) : Link T' sok m m1 :=
  ⟨fun a ha => h.frame a fun x => ha (ht a x), h.ok⟩

theorem Post.link {T : Addr → Prop} {sok : Sok} {Fin : Int → Mem → Prop} {m m' : Mem} {res : Option Int} (h : Post T sok Fin m res m')
    (hr : res = none) : Link T sok m m' := ⟨h.frame, h.ok hr⟩

theorem Link.post {T : Addr → Prop} {sok : Sok} {Fin : Int → Mem → Prop} {m m' : Mem} (h : Link T sok m m') : Post T sok Fin m none m' :=
  ⟨h.frame, fun _ => h.ok, by simp⟩

theorem Post.mono {T T' : Addr → Prop} {sok : Sok} {Fin : Int → Mem → Prop} {m m' : Mem} {res : Option Int} (h : Post T sok Fin m res m')
    (ht : ∀ a, T a → T' a) : Post T' sok Fin m res m' :=
  ⟨fun a ha => h.frame a fun x => ha (ht a x), h.ok, h.fin⟩

theorem Post.after {T : Addr → Prop} {sok : Sok} {Fin : Int → Mem → Prop} {m m1 m' : Mem} {res : Option Int} (h : Post T sok Fin m1 res m')
    (hl : Link T sok m m1) : Post T sok Fin m res m' := by
  refine ⟨fun a ha => (h.frame a ha).trans (hl.frame a ha), fun hr a => ?_, h.fin⟩
  exact (hl.trans (h.link hr)).ok a

/-- the part of `Post` for success does not need the rest of the relation -/
theorem Post.after_some {T : Addr → Prop} {sok : Sok} {Fin : Int → Mem → Prop} {m m1 m' : Mem} {r : Int}
    (h : Post T sok Fin m1 (some r) m') (hf : ∀ a, ¬ T a → m1.vars a = m.vars a) : Post T sok Fin m (some r) m' :=
  ⟨fun a ha => (h.frame a ha).trans (hf a ha), by simp, h.fin⟩

/-- an invariant that failing runs keep -/
def Stable (T : Addr → Prop) (sok : Sok) (Inv : Mem → Prop) : Prop := ∀ m m', Inv m → Link T sok m m' → Inv m'

theorem Stable.mono {T T' : Addr → Prop} {sok : Sok} {Inv : Mem → Prop} (h : Stable T' sok Inv) (ht : ∀ a, T a → T' a) : Stable T sok Inv :=
  fun m m' hi hl => h m m' hi (hl.mono ht)

/-- from `c`, with any memory satisfying `Inv` and any stack, the run lands with the result `res` -/
def Runs (env : Env) (T : Addr → Prop) (sok : Sok) (Fin : Int → Mem → Prop) (Inv : Mem → Prop) (c : Cfg) (res : Option Int) : Prop :=
  ∀ m S, Inv m → Lands env ⟨c, none, m, S⟩ res.isSome S (Post T sok Fin m res)

theorem Runs.mono {env : Env} {T T' : Addr → Prop} {sok : Sok} {Fin : Int → Mem → Prop} {Inv : Mem → Prop} {c : Cfg} {res : Option Int}
    (h : Runs env T sok Fin Inv c res) (ht : ∀ a, T a → T' a) : Runs env T' sok Fin Inv c res :=
  fun m S hi => lands_mono (h m S hi) fun _ hp => hp.mono ht

/-- a change of the fields of one node -/
theorem link_set {T : Addr → Prop} {sok : Sok} {m : Mem} {a : Addr} {v : Vars} (ht : T a)
    (h : (v.p0 = (m.vars a).p0 ∧ v.old = (m.vars a).old) ∨ sok a v.p0 v.old) : Link T sok m (m.set a v) := by
  refine ⟨fun b hb => ?_, fun b => ?_⟩
  · have : b ≠ a := by rintro rfl; exact hb ht
    simp [Mem.set, this]
  · by_cases hb : b = a
    · subst hb; simpa [Mem.set] using h
    · left; simp [Mem.set, hb]

theorem set_same (m : Mem) (a : Addr) (v : Vars) : (m.set a v).vars a = v := by simp [Mem.set]

theorem set_other (m : Mem) {a b : Addr} (v : Vars) (h : b ≠ a) : (m.set a v).vars b = m.vars b := by simp [Mem.set, h]

theorem set_set (m : Mem) (a : Addr) (v w : Vars) : (m.set a v).set a w = m.set a w := by
  simp only [Mem.set]
  congr 1
  funext b
  by_cases h : b = a <;> simp [h]

/-! ## Lists -/

theorem find_flatMap {α β γ : Type} (l : List α) (f : α → List β) (K : β → Option γ) :
    (l.flatMap f).findSome? K = l.findSome? fun x => (f x).findSome? K := by
  induction l with
  | nil => rfl
  | cons x xs ih =>
    rw [List.flatMap_cons, List.findSome?_append, ih, List.findSome?_cons]
    cases (f x).findSome? K <;> rfl

theorem find_congr {α β : Type} {l : List α} {f g : α → Option β} (h : ∀ x ∈ l, f x = g x) : l.findSome? f = l.findSome? g := by
  induction l with
  | nil => rfl
  | cons x xs ih =>
    rw [List.findSome?_cons, List.findSome?_cons, h x (by simp), ih fun y hy => h y (by simp [hy])]

theorem flatMap_congr {α β : Type} {l : List α} {f g : α → List β} (h : ∀ x ∈ l, f x = g x) : l.flatMap f = l.flatMap g := by
  induction l with
  | nil => rfl
  | cons x xs ih =>
    rw [List.flatMap_cons, List.flatMap_cons, h x (by simp), ih fun y hy => h y (by simp [hy])]

/-! ## Repetitions -/

theorem rep_none {f : Int → List Int} (lzy : Bool) {p : Int} (h : f p = []) (n : Nat) : rep f lzy n p = [p] := by
  cases n with
  | zero => rfl
  | succ n => rw [rep, h]; cases lzy <;> simp

theorem rep_enough {H L : Int} {f : Int → List Int} (lzy : Bool) (hf : Fwd H 1 f) (hL : H ≤ L) (n : Nat) : ∀ (m : Nat) (p : Int), 0 ≤ p →
    p ≤ H → L - p ≤ n → L - p ≤ m → rep f lzy n p = rep f lzy m p := by
  have nil : ∀ p, 0 ≤ p → p ≤ H → L - p ≤ 0 → f p = [] := by
    intro p h0 h1 h2
    cases hf' : f p with
    | nil => rfl
    | cons q qs => have := hf p q h0 h1 (by rw [hf']; simp); omega
  induction n with
  | zero => intro m p h0 h1 hn hm; rw [rep_none lzy (nil p h0 h1 (by omega)), rep_none lzy (nil p h0 h1 (by omega))]
  | succ n ih =>
    intro m p h0 h1 hn hm
    cases m with
    | zero => rw [rep_none lzy (nil p h0 h1 (by omega)), rep_none lzy (nil p h0 h1 (by omega))]
    | succ m =>
      have key : (f p).flatMap (rep f lzy n) = (f p).flatMap (rep f lzy m) := by
        refine flatMap_congr fun q hq => ?_
        have a := hf p q h0 h1 hq
        exact ih m q (by omega) a.2 (by omega) (by omega)
      rw [rep, rep, key]

/-- one round of a repetition -/
theorem star_unfold {env : Env} {H : Int} (he : EnvOk env H) {f : Int → List Int} (lzy : Bool) (hf : Fwd H 1 f) {p : Int} (h0 : 0 ≤ p)
    (h1 : p ≤ H) : star env f lzy p =
      if lzy then p :: (f p).flatMap (star env f lzy) else (f p).flatMap (star env f lzy) ++ [p] := by
  have hL := he.text
  unfold star
  have e : rep f lzy (env.text.length - p).toNat p = rep f lzy ((env.text.length - p).toNat + 1) p :=
    rep_enough lzy hf hL _ _ p h0 h1 (by omega) (by omega)
  have key : (f p).flatMap (rep f lzy (env.text.length - p).toNat) = (f p).flatMap fun (q : Int) => rep f lzy (env.text.length - q).toNat q := by
    refine flatMap_congr fun q hq => ?_
    have a := hf p q h0 h1 hq
    exact rep_enough lzy hf hL _ _ q (by omega) a.2 (by omega) (by omega)
  rw [e, rep, key]

/-- the result of a repetition followed by `K` -/
def loopK (env : Env) (f : Int → List Int) (lzy : Bool) (K : Int → Option Int) (q : Int) : Option Int := (star env f lzy q).findSome? K

theorem loopK_unfold {env : Env} {H : Int} (he : EnvOk env H) {f : Int → List Int} (lzy : Bool) (hf : Fwd H 1 f) (K : Int → Option Int) {p : Int}
    (h0 : 0 ≤ p) (h1 : p ≤ H) : loopK env f lzy K p =
      if lzy then (K p).or ((f p).findSome? (loopK env f lzy K)) else ((f p).findSome? (loopK env f lzy K)).or (K p) := by
  unfold loopK
  rw [star_unfold he lzy hf h0 h1]
  cases lzy with
  | true =>
    simp only [if_true, List.findSome?_cons, find_flatMap]
    cases K p <;> rfl
  | false =>
    simp only [Bool.false_eq_true, if_false, List.findSome?_append, find_flatMap, List.findSome?_cons, List.findSome?_nil]
    congr 1
    cases K p <;> rfl

theorem star_mem {env : Env} {H : Int} (he : EnvOk env H) {f : Int → List Int} (lzy : Bool) (hf : Fwd H 1 f) {p q r : Int} (h0 : 0 ≤ p)
    (h1 : p ≤ H) (hq : q ∈ f p) (hr : r ∈ star env f lzy q) : r ∈ star env f lzy p := by
  rw [star_unfold he lzy hf h0 h1]
  cases lzy <;> simp <;> grind

theorem star_self {env : Env} {H : Int} (he : EnvOk env H) {f : Int → List Int} (lzy : Bool) (hf : Fwd H 1 f) {p : Int} (h0 : 0 ≤ p)
    (h1 : p ≤ H) : p ∈ star env f lzy p := by
  rw [star_unfold he lzy hf h0 h1]
  cases lzy <;> simp

end Verif.RegExp
