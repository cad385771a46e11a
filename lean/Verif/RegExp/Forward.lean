import Verif.RegExp.History

/-!
# The match does not begin before the position searched from

For expressions whose look-behinds hold no `\m`, `\M` (`fwd`): a successful call reports a whole match that begins at the position given
or after it (`parse_forward`). The invariant: outside look-behinds the position is not before the one the search started at; inside them
there are no marks; so the bounds of the whole match are unset or not before it.
-/
namespace Verif.RegExp

/-- a look-behind -/
def isBehind : Node → Bool
  | .behind _ _ | .nbehind _ _ => true
  | _ => false

mutual
/-- no `\m`, `\M` inside a look-behind; no bracket number 0 (the compiler gives 0 to the outermost, and to groups beyond the 16th) -/
def fwd : List Node → Bool
  | [] => true
  | n :: ns => fwdN n && fwd ns
def fwdN : Node → Bool
  | .brackets idx b => idx != some 0 && fwd b
  | .behind _ b => noMark b && fwd b
  | .nbehind _ b => noMark b && fwd b
  | .named _ b | .ahead b | .nahead b | .or b | .rangeN _ b | .rangeNM _ _ b | .ngRangeN _ b | .ngRangeNM _ _ b => fwd b
  | .empty | .msym _ | .symb _ | .word _ | .enum _ | .nenum _ | .bkTrace _ | .bkTraceN _ | .bkTraceName _ | .bkTraceNName _ | .bkBrack _
  | .bkBrackName _ => true
end

theorem fwd_body {n : Node} (h : fwdN n = true) : fwd n.body = true := by
  cases n <;> simp only [fwdN, Bool.and_eq_true] at h <;> first | exact h | exact h.2 | rfl

theorem fwd_behind {n : Node} (h : fwdN n = true) (hb : isBehind n = true) : noMark n.body = true := by
  cases n <;> simp [isBehind] at hb <;> simp only [fwdN, Bool.and_eq_true] at h <;> exact h.1

theorem noMark_body {n : Node} {ns : List Node} (h : noMark (n :: ns) = true) : noMark n.body = true := noMark_inherited.body _ _ h
theorem noMark_tail {n : Node} {ns : List Node} (h : noMark (n :: ns) = true) : noMark ns = true := noMark_inherited.tail _ _ h

/-! ## Rounds -/

/-- positions grow, except into a look-behind -/
def Move (n : Node) (ns : List Node) (up : List (List Node)) (left : Bool) (q : Int) : Res → Prop
  | .goto c => q ≤ c.q
  | .call c _ _ => q ≤ c.q ∨ (isBehind n = true ∧ left = true ∧ ∃ q', c = ⟨n.body :: (n :: ns) :: up, true, q'⟩)
  | .fail | .succ | .oob => True

theorem tested_move {H : Int} {n : Node} {ns : List Node} {up : List (List Node)} {left : Bool} {q : Int} {c : Chk} (h : ChkOk H q c) :
    Move n ns up left q (tested ns up c) := by
  cases c with
  | no => trivial
  | oob => trivial
  | yes q' => exact (h.2 q' rfl).1

theorem execNode_move {env : Env} {H : Int} (he : EnvOk env H) (n : Node) (ns : List Node) (up : List (List Node)) (left : Bool) {q : Int} {m : Mem}
    (hm : MOk env H m.m) (h0 : 0 ≤ q) (h1 : q ≤ H) : Move n ns up left q (execNode env n ns up left q m).1 := by
  have rfl' : q ≤ q := Int.le_refl q
  cases n with
  | empty => exact rfl'
  | msym k => exact tested_move (chk_meta he h0 h1 k)
  | symb c => exact tested_move (chk_eat he h0 _)
  | word w => exact tested_move (chk_word he w h0 h1)
  | enum cls => exact tested_move (chk_eat he h0 _)
  | nenum cls => exact tested_move (chk_eat he h0 _)
  | brackets idx body => cases left <;> cases idx <;> exact rfl'
  | named idx body => cases left <;> cases idx <;> exact rfl'
  | bkTrace k => exact tested_move (chk_trace he _ _ k h0 h1)
  | bkTraceN k => exact tested_move (chk_trace he _ _ k h0 h1)
  | bkTraceName k => exact tested_move (chk_trace he _ _ k h0 h1)
  | bkTraceNName k => exact tested_move (chk_trace he _ _ k h0 h1)
  | bkBrack k => exact tested_move (chk_bkBrack he hm k h0 h1)
  | bkBrackName k => exact tested_move (chk_bkBrackName he hm k h0 h1)
  | ahead body => cases left <;> first | trivial | exact .inl rfl'
  | nahead body => cases left <;> first | trivial | exact .inl rfl'
  | behind k body => cases left with
    | true =>
      show Move _ _ _ _ _ (Prod.fst (if q - k < 0 then _ else _))
      split
      · trivial
      · exact .inr ⟨rfl, rfl, _, rfl⟩
    | false => trivial
  | nbehind k body => cases left with
    | true =>
      show Move _ _ _ _ _ (Prod.fst (if q - k ≥ 0 then _ else _))
      split
      · exact .inr ⟨rfl, rfl, _, rfl⟩
      · exact rfl'
    | false => trivial
  | or body => cases left <;> first | exact .inl rfl' | exact rfl'
  | rangeN s body =>
    show Move _ _ _ _ _ (execRangeN ns up (.rangeN s body) s body left q m).1
    unfold execRangeN
    dsimp only
    repeat' split
    all_goals first | exact rfl' | exact .inl rfl'
  | rangeNM s e body =>
    show Move _ _ _ _ _ (execRangeNM ns up (.rangeNM s e body) s e body false left q m).1
    unfold execRangeNM
    dsimp only
    repeat' split
    all_goals first | exact rfl' | exact .inl rfl'
  | ngRangeN s body =>
    show Move _ _ _ _ _ (execNGRangeN ns up (.ngRangeN s body) s body left q m).1
    unfold execNGRangeN
    dsimp only
    repeat' split
    all_goals first | exact rfl' | exact .inl rfl'
  | ngRangeNM s e body =>
    show Move _ _ _ _ _ (execRangeNM ns up (.ngRangeNM s e body) s e body true left q m).1
    unfold execRangeNM
    dsimp only
    repeat' split
    all_goals first | exact rfl' | exact .inl rfl'

/-- what a round does to the memory: fields of the node, other groups; the bounds of the whole match only at a mark -/
structure Touch (n : Node) (a : Addr) (q : Int) (m m' : Mem) : Prop where
  vars : ∀ b, b ≠ a → m'.vars b = m.vars b
  s : m'.m.s 0 = m.m.s 0 ∨ (m'.m.s 0 = q ∧ noMarkN n = false)
  e : m'.m.e 0 = m.m.e 0 ∨ (m'.m.e 0 = q ∧ noMarkN n = false)

theorem touch_refl (n : Node) (a : Addr) (q : Int) (m : Mem) : Touch n a q m m := ⟨fun _ _ => rfl, .inl rfl, .inl rfl⟩

theorem touch_set (n : Node) (a : Addr) (q : Int) (m : Mem) (v : Vars) : Touch n a q m (m.set a v) :=
  ⟨fun b hb => by simp [Mem.set, hb], .inl rfl, .inl rfl⟩

theorem execNode_touch (env : Env) (n : Node) (ns : List Node) (up : List (List Node)) (left : Bool) (q : Int) (m : Mem)
    (hz : ∀ b, n ≠ .brackets (some 0) b) : Touch n (addr ((n :: ns) :: up)) q m (execNode env n ns up left q m).2 := by
  cases n with
  | empty => exact touch_refl ..
  | msym k =>
    show Touch _ _ _ m (markMeta m q k)
    cases k <;> first
      | exact touch_refl ..
      | exact ⟨fun _ _ => rfl, .inr ⟨by simp [markMeta, upd], rfl⟩, .inl rfl⟩
      | exact ⟨fun _ _ => rfl, .inl rfl, .inr ⟨by simp [markMeta, upd], rfl⟩⟩
  | symb c => exact touch_refl ..
  | word w => exact touch_refl ..
  | enum cls => exact touch_refl ..
  | nenum cls => exact touch_refl ..
  | brackets idx body =>
    cases left with
    | true => exact touch_set ..
    | false =>
      cases idx with
      | none => exact touch_refl ..
      | some i =>
        have hi : 0 ≠ i := by rintro rfl; exact hz body rfl
        exact ⟨fun _ _ => rfl, .inl (close_s_other _ _ _ _ _ hi), .inl (by
          show (m.close i _ q).m.e 0 = _
          rw [close_e, if_neg (by simp [hi])])⟩
  | named idx body =>
    cases left with
    | true => exact touch_set ..
    | false =>
      cases idx with
      | none => exact touch_refl ..
      | some i => exact ⟨fun _ _ => rfl, .inl rfl, .inl rfl⟩
  | bkTrace k => exact touch_refl ..
  | bkTraceN k => exact touch_refl ..
  | bkTraceName k => exact touch_refl ..
  | bkTraceNName k => exact touch_refl ..
  | bkBrack k => exact touch_refl ..
  | bkBrackName k => exact touch_refl ..
  | ahead body => cases left <;> exact touch_refl ..
  | nahead body => cases left <;> exact touch_refl ..
  | behind k body => cases left with
    | true =>
      show Touch _ _ _ _ (Prod.snd (if q - k < 0 then _ else _))
      split <;> exact touch_refl ..
    | false => exact touch_refl ..
  | nbehind k body => cases left with
    | true =>
      show Touch _ _ _ _ (Prod.snd (if q - k ≥ 0 then _ else _))
      split <;> exact touch_refl ..
    | false => exact touch_refl ..
  | or body => cases left <;> exact touch_refl ..
  | rangeN s body =>
    show Touch _ _ _ _ (execRangeN ns up (.rangeN s body) s body left q m).2
    unfold execRangeN
    dsimp only
    repeat' split
    all_goals exact touch_set ..
  | rangeNM s e body =>
    show Touch _ _ _ _ (execRangeNM ns up (.rangeNM s e body) s e body false left q m).2
    unfold execRangeNM
    dsimp only
    repeat' split
    all_goals exact touch_set ..
  | ngRangeN s body =>
    show Touch _ _ _ _ (execNGRangeN ns up (.ngRangeN s body) s body left q m).2
    unfold execNGRangeN
    dsimp only
    repeat' split
    all_goals exact touch_set ..
  | ngRangeNM s e body =>
    show Touch _ _ _ _ (execRangeNM ns up (.ngRangeNM s e body) s e body true left q m).2
    unfold execRangeNM
    dsimp only
    repeat' split
    all_goals exact touch_set ..

/-! ## The invariant -/

/-- inside a look-behind, in chains without marks -/
def Under (pos : List (List Node)) : Prop :=
  ∃ above n ns up, pos = above ++ (n :: ns) :: up ∧ isBehind n = true ∧ ∀ l ∈ above, noMark l = true

theorem Under.cons {l : List Node} {pos : List (List Node)} (hl : noMark l = true) (h : Under pos) : Under (l :: pos) := by
  obtain ⟨ab, n, ns, up, rfl, hb, ha⟩ := h
  refine ⟨l :: ab, n, ns, up, rfl, hb, fun x hx => ?_⟩
  rcases List.mem_cons.1 hx with rfl | hx
  · exact hl
  · exact ha x hx

theorem Under.here {n : Node} {ns : List Node} {up : List (List Node)} (hb : isBehind n = true) : Under ((n :: ns) :: up) :=
  ⟨[], n, ns, up, rfl, hb, by simp⟩

theorem Under.inv {l : List Node} {pos : List (List Node)} (h : Under (l :: pos)) : (∃ n ns, l = n :: ns ∧ isBehind n = true) ∨ (noMark l = true ∧ Under pos) := by
  obtain ⟨ab, n, ns, up, he, hb, ha⟩ := h
  cases ab with
  | nil => simp only [List.nil_append, List.cons.injEq] at he; exact .inl ⟨n, ns, he.1, hb⟩
  | cons x ab =>
    simp only [List.cons_append, List.cons.injEq] at he
    obtain ⟨rfl, rfl⟩ := he
    exact .inr ⟨ha _ (by simp), ab, n, ns, up, rfl, hb, fun y hy => ha y (by simp [hy])⟩

/-- the position is not before `L`, or the pointer is inside a look-behind; `x` is the chain pointed into, `up` those around it -/
def Far (L q : Int) (x : List Node) (up : List (List Node)) : Prop := L ≤ q ∨ (noMark x = true ∧ Under up)

def CfgFar (L : Int) (c : Cfg) : Prop :=
  if c.left then ∀ x up, c.pos = x :: up → Far L c.q x up else L ≤ c.q ∨ Under c.pos

def ElemFar (L : Int) (c : Cfg) : Prop := ∀ x up, c.pos = x :: up → Far L c.q x up

/-- the pointer is below the outermost bracket, or at it, or behind it -/
def Low (root : List (List Node)) (pos : List (List Node)) : Prop :=
  pos = [] ∨ pos = [[]] ∨ ∃ xs, pos = xs ++ root ∧ ∀ l ∈ xs, fwd l = true

/-- the bounds of the whole match are unset or not before `L` -/
def Bnd (L : Int) (m : Mem) : Prop := (m.m.s 0 = -1 ∨ L ≤ m.m.s 0) ∧ (m.m.e 0 = -1 ∨ L ≤ m.m.e 0)

structure Fore (L : Int) (body : List Node) (st : State) : Prop where
  bnd : Bnd L st.m
  start : L ≤ (st.m.vars [1]).start ∨ (st.c = ⟨[[.brackets (some 0) body]], true, st.c.q⟩ ∧ L ≤ st.c.q ∧ st.act = none ∧ st.stack = [])
  cur : (match st.act with | none => CfgFar L st.c | some _ => ElemFar L st.c) ∧ Low [[.brackets (some 0) body]] st.c.pos
  stack : ∀ x ∈ st.stack, ElemFar L x.c ∧ ∃ xs, x.c.pos = xs ++ [[.brackets (some 0) body]] ∧ xs ≠ [] ∧ ∀ l ∈ xs, fwd l = true
  act : st.act ≠ none → ∃ xs, st.c.pos = xs ++ [[.brackets (some 0) body]] ∧ xs ≠ [] ∧ ∀ l ∈ xs, fwd l = true

def FOut (L : Int) (body : List Node) : State ⊕ (End × Mem) → Prop
  | .inl st => Fore L body st
  | .inr r => Bnd L r.2

/-- below the outermost bracket -/
def Inner (body : List Node) (pos : List (List Node)) : Prop := ∃ xs, pos = xs ++ [[.brackets (some 0) body]] ∧ xs ≠ [] ∧ ∀ l ∈ xs, fwd l = true

theorem pop_fore {L : Int} {body : List Node} {b : Bool} {m : Mem} {s : List Elem} (hb : Bnd L m) (hv : L ≤ (m.vars [1]).start)
    (hs : ∀ x ∈ s, ElemFar L x.c ∧ Inner body x.c.pos) : FOut L body (pop b m s) := by
  cases s with
  | nil => exact hb
  | cons x xs =>
    have := hs x (List.mem_cons_self ..)
    exact ⟨hb, .inl hv, ⟨this.1, .inr (.inr ⟨_, this.2.choose_spec.1, this.2.choose_spec.2.2⟩)⟩, fun y hy => hs y (List.mem_cons_of_mem _ hy), fun _ => this.2⟩

theorem after_fore {L : Int} {body : List Node} {c : Cfg} {stack : List Elem} {r : Res × Mem} (hb : Bnd L r.2) (hv : L ≤ (r.2.vars [1]).start)
    (hs : ∀ x ∈ stack, ElemFar L x.c ∧ Inner body x.c.pos)
    (hg : ∀ c', r.1 = .goto c' → CfgFar L c' ∧ Low [[.brackets (some 0) body]] c'.pos)
    (hc : ∀ c' t f, r.1 = .call c' t f → (CfgFar L c' ∧ Low [[.brackets (some 0) body]] c'.pos) ∧ ElemFar L c ∧ Inner body c.pos) :
    FOut L body (after c stack r) := by
  obtain ⟨r1, m⟩ := r
  cases r1 with
  | fail => exact pop_fore hb hv hs
  | succ => exact pop_fore hb hv hs
  | oob => exact hb
  | goto c' => exact ⟨hb, .inl hv, hg c' rfl, hs, fun h => absurd rfl h⟩
  | call c' t f =>
    obtain ⟨h1, h2⟩ := hc c' t f rfl
    refine ⟨hb, .inl hv, h1, fun x hx => ?_, fun h => absurd rfl h⟩
    rcases List.mem_cons.1 hx with rfl | hx
    · exact h2
    · exact hs x hx

theorem Inner.low {body : List Node} {pos : List (List Node)} (h : Inner body pos) : Low [[.brackets (some 0) body]] pos := by
  obtain ⟨xs, h1, _, h2⟩ := h
  exact .inr (.inr ⟨xs, h1, h2⟩)

theorem Inner.inv {body : List Node} {l : List Node} {up : List (List Node)} (h : Inner body (l :: up)) :
    fwd l = true ∧ up ≠ [] ∧ Low [[.brackets (some 0) body]] up ∧ ∀ x, fwd x = true → Inner body (x :: up) := by
  obtain ⟨xs, h1, h2, h3⟩ := h
  cases xs with
  | nil => exact absurd rfl h2
  | cons x xs =>
    simp only [List.cons_append, List.cons.injEq] at h1
    obtain ⟨rfl, rfl⟩ := h1
    refine ⟨h3 _ (by simp), by simp, .inr (.inr ⟨xs, rfl, fun y hy => h3 y (by simp [hy])⟩), fun y hy => ⟨y :: xs, rfl, by simp, ?_⟩⟩
    intro z hz
    rcases List.mem_cons.1 hz with rfl | hz
    · exact hy
    · exact h3 z (by simp [hz])

theorem Inner.cons {body : List Node} {l x : List Node} {up : List (List Node)} (h : Inner body (l :: up)) (hx : fwd x = true) : Inner body (x :: l :: up) := by
  obtain ⟨xs, h1, h2, h3⟩ := h
  refine ⟨x :: xs, by rw [h1]; rfl, by simp, fun z hz => ?_⟩
  rcases List.mem_cons.1 hz with rfl | hz
  · exact hx
  · exact h3 z hz

theorem addr_ne_one {l : List Node} {up : List (List Node)} (h : up ≠ []) : addr (l :: up) ≠ [1] := by
  intro he
  simp only [addr, List.map_cons, List.cons.injEq, List.map_eq_nil_iff] at he
  exact h he.2

theorem far_mono {L q q' : Int} {x : List Node} {up : List (List Node)} (h : Far L q x up) (hq : q ≤ q') : Far L q' x up := by
  rcases h with h | h
  · exact .inl (by omega)
  · exact .inr h

/-- a round at a node below the outermost bracket -/
theorem node_fore {env : Env} {H L : Int} (he : EnvOk env H) {body : List Node} {n : Node} {ns : List Node} {up : List (List Node)} {left : Bool} {q : Int}
    {m : Mem} {stack : List Elem} (hm : MOk env H m.m) (h0 : 0 ≤ q) (h1 : q ≤ H) (hin : Inner body ((n :: ns) :: up))
    (hf : CfgFar L ⟨(n :: ns) :: up, left, q⟩) (hb : Bnd L m) (hv : L ≤ (m.vars [1]).start)
    (hs : ∀ x ∈ stack, ElemFar L x.c ∧ Inner body x.c.pos) :
    FOut L body (after ⟨(n :: ns) :: up, left, q⟩ stack (execNode env n ns up left q m)) := by
  obtain ⟨w1, w2, w3, w4⟩ := hin.inv
  have hfn : fwdN n = true ∧ fwd ns = true := by simpa [fwd] using w1
  have hz : ∀ b, n ≠ .brackets (some 0) b := by
    rintro b rfl
    simp [fwdN] at hfn
  have sh := execNode_shape env n ns up left q m
  have mv := execNode_move he n ns up left hm h0 h1
  have tc := execNode_touch env n ns up left q m hz
  -- the node is entered, or left and no look-behind
  have far : isBehind n = false ∨ left = true → Far L q (n :: ns) up := by
    intro h
    cases left with
    | true => exact hf _ _ rfl
    | false =>
      have hf : L ≤ q ∨ Under ((n :: ns) :: up) := hf
      rcases hf with hf | hf
      · exact .inl hf
      · rcases hf.inv with ⟨n', ns', e, hb'⟩ | hf
        · cases e
          rcases h with h | h
          · rw [h] at hb'; cases hb'
          · cases h
        · exact .inr hf
  have nm : noMarkN n = false → L ≤ q := by
    intro hn
    have : isBehind n = false ∨ left = true := by
      cases n <;> simp [isBehind]
      all_goals
        simp only [noMarkN] at hn
        simp only [fwdN, Bool.and_eq_true] at hfn
        rw [hfn.1.1] at hn
        cases hn
    rcases far this with h | ⟨h, _⟩
    · exact h
    · simp [noMark, hn] at h
  have hb' : Bnd L (execNode env n ns up left q m).2 := by
    refine ⟨?_, ?_⟩
    · rcases tc.s with h | ⟨h, h'⟩
      · rw [h]; exact hb.1
      · rw [h]; exact .inr (nm h')
    · rcases tc.e with h | ⟨h, h'⟩
      · rw [h]; exact hb.2
      · rw [h]; exact .inr (nm h')
  have hv' : L ≤ ((execNode env n ns up left q m).2.vars [1]).start := by
    rw [tc.vars _ (Ne.symm (addr_ne_one w2))]; exact hv
  have look : isLook n = false → isBehind n = false := by
    intro h; cases n <;> first | rfl | simp [isLook] at h
  -- going on behind the node
  have next : (isBehind n = false ∨ left = true) → ∀ q', q ≤ q' → CfgFar L ⟨ns :: up, true, q'⟩ ∧ Low [[.brackets (some 0) body]] (ns :: up) := by
    intro h q' hq
    refine ⟨?_, (w4 ns hfn.2).low⟩
    intro x u hxu
    cases hxu
    rcases far h with h | ⟨h, h'⟩
    · exact .inl (by show L ≤ q'; omega)
    · exact .inr ⟨noMark_tail h, h'⟩
  have inside : (isBehind n = false ∨ left = true) → ∀ q', (q ≤ q' ∨ isBehind n = true) →
      CfgFar L ⟨n.body :: (n :: ns) :: up, true, q'⟩ ∧ Low [[.brackets (some 0) body]] (n.body :: (n :: ns) :: up) := by
    intro h q' hq
    refine ⟨?_, (hin.cons (fwd_body hfn.1)).low⟩
    intro x u hxu
    cases hxu
    cases hbh : isBehind n with
    | true => exact .inr ⟨fwd_behind hfn.1 hbh, .here hbh⟩
    | false =>
      have hq : q ≤ q' := by
        rcases hq with hq | hq
        · exact hq
        · rw [hbh] at hq; cases hq
      rcases far h with h | ⟨h, h'⟩
      · exact .inl (by show L ≤ q'; omega)
      · exact .inr ⟨noMark_body h, h'.cons h⟩
  refine after_fore hb' hv' hs ?_ ?_
  · intro c' hc'
    rw [hc'] at sh mv
    rcases sh with ⟨⟨q', rfl⟩, a1, a2⟩ | ⟨⟨q', rfl⟩, a1⟩ | ⟨⟨q', rfl⟩, a1, a2⟩
    · exact next (a1.imp look id) q' mv
    · exact inside (.inl (look a1)) q' (.inl mv)
    · refine ⟨?_, w3⟩
      show L ≤ q' ∨ Under up
      have mv : q ≤ q' := mv
      rcases far (.inl (look a1)) with h | ⟨h, h'⟩
      · exact .inl (by omega)
      · exact .inr h'
  · intro c' t f hc'
    rw [hc'] at sh mv
    have hlk : isBehind n = false ∨ left = true := by
      obtain ⟨_, _, h⟩ := sh
      cases hl : isLook n with
      | false => exact .inl (look hl)
      | true =>
        rcases h with ⟨_, h⟩ | ⟨_, h⟩
        · rw [hl] at h; cases h
        · exact .inr (h hl)
    refine ⟨?_, ?_, hin⟩
    · rcases sh.2.2 with ⟨⟨q', rfl⟩, a1⟩ | ⟨⟨q', rfl⟩, a1⟩
      · rcases mv with mv | ⟨hb2, _⟩
        · exact next hlk q' mv
        · rw [look a1] at hb2; cases hb2
      · exact inside hlk q' (mv.imp id fun h => h.1)
    · intro x u hxu
      cases hxu
      exact far hlk

theorem step_fore {env : Env} {H L : Int} (he : EnvOk env H) (hL : 0 ≤ L) {body : List Node} (hbody : fwd body = true) {st : State} (hok : StateOk env H st) (h : Fore L body st) :
    FOut L body (step env st) := by
  obtain ⟨c, act, m, stack⟩ := st
  obtain ⟨hb, hv0, hc, hs, ha⟩ := h
  rw [step_eq]
  cases act with
  | some a =>
    have hv : L ≤ (m.vars [1]).start := by
      rcases hv0 with hv | ⟨_, _, hv, _⟩
      · exact hv
      · cases hv
    have hin : Inner body c.pos := ha (by simp)
    have hf : ElemFar L c := hc.1
    obtain ⟨pos, left, q⟩ := c
    match pos, hin, hf with
    | [], hin, _ => obtain ⟨xs, h, h', _⟩ := hin; cases xs <;> simp at h
    | [] :: up, _, _ => exact pop_fore hb hv hs
    | (n :: ns) :: up, hin, hf =>
      obtain ⟨w1, w2, w3, w4⟩ := hin.inv
      have hfn : fwdN n = true ∧ fwd ns = true := by simpa [fwd] using w1
      have far : Far L q (n :: ns) up := hf _ _ rfl
      have next : CfgFar L ⟨ns :: up, true, q⟩ ∧ Low [[.brackets (some 0) body]] (ns :: up) := by
        refine ⟨?_, (w4 ns hfn.2).low⟩
        intro x u hxu
        cases hxu
        rcases far with h | ⟨h, h'⟩
        · exact .inl h
        · exact .inr ⟨noMark_tail h, h'⟩
      have inside : CfgFar L ⟨n.body :: (n :: ns) :: up, true, q⟩ ∧ Low [[.brackets (some 0) body]] (n.body :: (n :: ns) :: up) := by
        refine ⟨?_, (hin.cons (fwd_body hfn.1)).low⟩
        intro x u hxu
        cases hxu
        rcases far with h | ⟨h, h'⟩
        · exact .inl h
        · exact .inr ⟨noMark_body h, h'.cons h⟩
      have hset : ∀ v, L ≤ ((m.set (addr ((n :: ns) :: up)) v).vars [1]).start := by
        intro v
        have : (m.set (addr ((n :: ns) :: up)) v).vars [1] = m.vars [1] := by
          simp only [Mem.set]; rw [if_neg (Ne.symm (addr_ne_one w2))]
        rw [this]; exact hv
      cases a with
      | no => exact pop_fore hb hv hs
      | yes => exact pop_fore hb hv hs
      | brk => exact after_fore (r := (.goto ⟨ns :: up, true, q⟩, m)) hb hv hs (fun c' h => by cases h; exact next) (fun _ _ _ h => by cases h)
      | rangeN2 => exact after_fore (r := (.call ⟨ns :: up, true, q⟩ .yes .no, m)) hb hv hs (fun c' h => by cases h) (fun _ _ _ h => by cases h; exact ⟨next, hf, hin⟩)
      | rangeNM2 => exact after_fore (r := (.call ⟨ns :: up, true, q⟩ .yes .rangeNM3, m)) hb hv hs (fun c' h => by cases h) (fun _ _ _ h => by cases h; exact ⟨next, hf, hin⟩)
      | rangeNM3 => exact pop_fore hb (hset _) hs
      | ngRangeN2 =>
        refine after_fore (r := (.goto ⟨n.body :: (n :: ns) :: up, true, q⟩, if (m.vars (addr ((n :: ns) :: up))).p0 = 0 then m else _)) ?_ ?_ hs
          (fun c' h => by cases h; exact inside) (fun _ _ _ h => by cases h)
        · dsimp only; split <;> exact hb
        · dsimp only; split
          · exact hv
          · exact hset _
      | ngRangeNM2 => exact after_fore (r := (.call ⟨n.body :: (n :: ns) :: up, true, q⟩ .yes .ngRangeNM3, m)) hb hv hs (fun c' h => by cases h) (fun _ _ _ h => by cases h; exact ⟨inside, hf, hin⟩)
      | ngRangeNM3 => exact pop_fore hb (hset _) hs
  | none =>
    obtain ⟨pos, left, q⟩ := c
    obtain ⟨hf, hl⟩ := hc
    have hf : CfgFar L ⟨pos, left, q⟩ := hf
    have hl : Low [[.brackets (some 0) body]] pos := hl
    obtain ⟨c0, c1, c2⟩ := hok.cur
    have c0 : 0 ≤ q := c0
    have c1 : q ≤ H := c1
    have hm : MOk env H m.m := hok.mok
    have hempty : (∀ x ∈ stack, ElemFar L x.c ∧ Inner body x.c.pos) := hs
    -- anything but the first round
    have rest : pos = [[.brackets (some 0) body]] ∧ left = true ∧ L ≤ q ∨ L ≤ (m.vars [1]).start := by
      rcases hv0 with hv | ⟨h, h', _⟩
      · exact .inr hv
      · simp only [Cfg.mk.injEq] at h; exact .inl ⟨h.1, h.2.1, h'⟩
    rcases hl with hl | hl | ⟨xs, hl, hx⟩
    · subst hl
      rcases rest with ⟨h, _⟩ | hv
      · simp at h
      · exact pop_fore hb hv hs
    · subst hl
      rcases rest with ⟨h, _⟩ | hv
      · simp at h
      · refine after_fore (r := (.goto ⟨[], false, q⟩, m)) hb hv hs (fun c' h => ?_) (fun _ _ _ h => by cases h)
        cases h
        refine ⟨?_, .inl rfl⟩
        show L ≤ q ∨ Under []
        have und : ¬ Under [] := by rintro ⟨ab, n, ns, up, h, _⟩; cases ab <;> simp at h
        cases left with
        | true =>
          rcases hf [] [] rfl with h | ⟨_, h⟩
          · exact .inl h
          · exact absurd h und
        | false =>
          have hf : L ≤ q ∨ Under [[]] := hf
          rcases hf with h | h
          · exact .inl h
          · rcases h.inv with ⟨_, _, h, _⟩ | ⟨_, h⟩
            · cases h
            · exact .inr h
    · cases xs with
      | nil =>
        simp only [List.nil_append] at hl
        subst hl
        -- the outermost bracket
        have und : ¬ Under [] := by rintro ⟨ab, n, ns, up, h, _⟩; cases ab <;> simp at h
        have hLq : L ≤ q := by
          cases left with
          | true =>
            rcases hf _ _ rfl with h | ⟨_, h⟩
            · exact h
            · exact absurd h und
          | false =>
            have hf : L ≤ q ∨ Under [[.brackets (some 0) body]] := hf
            rcases hf with h | h
            · exact h
            · rcases h.inv with ⟨n, ns, h, hb'⟩ | ⟨_, h⟩
              · cases h; simp [isBehind] at hb'
              · exact absurd h und
        cases left with
        | true =>
          refine after_fore (r := (.goto ⟨body :: [[.brackets (some 0) body]], true, q⟩,
            m.set (addr [[.brackets (some 0) body]]) { m.vars (addr [[.brackets (some 0) body]]) with start := q })) hb ?_ hs (fun c' h => ?_) (fun _ _ _ h => by cases h)
          · show L ≤ ((m.set [1] _).vars [1]).start
            simp only [Mem.set, if_true]
            exact hLq
          · cases h
            refine ⟨fun x u hxu => .inl hLq, .inr (.inr ⟨[body], rfl, by simpa using hbody⟩)⟩
        | false =>
          have hv : L ≤ (m.vars [1]).start := by
            rcases rest with ⟨_, h, _⟩ | hv
            · cases h
            · exact hv
          refine after_fore (r := (.goto ⟨[[]], true, q⟩, m.close 0 (m.vars (addr [[.brackets (some 0) body]])).start q)) ?_ hv hs (fun c' h => ?_) (fun _ _ _ h => by cases h)
          · have he : (m.close 0 (m.vars [1]).start q).m.e 0 = -1 ∨ L ≤ (m.close 0 (m.vars [1]).start q).m.e 0 := by
              rw [close_e]
              split
              · exact .inr hLq
              · exact hb.2
            refine ⟨?_, he⟩
            show (m.close 0 (m.vars [1]).start q).m.s 0 = -1 ∨ L ≤ (m.close 0 (m.vars [1]).start q).m.s 0
            rw [close_s_same]
            obtain ⟨b1, b2⟩ := hb
            have := hok.mok
            generalize (m.close 0 (m.vars [1]).start q).m.e 0 = e at he ⊢
            have b1 : m.m.s 0 = -1 ∨ L ≤ m.m.s 0 := b1
            split <;> omega
          · cases h
            exact ⟨fun x u hxu => .inl hLq, .inr (.inl rfl)⟩
      | cons x xs =>
        have hin : Inner body pos := ⟨x :: xs, hl, by simp, hx⟩
        have hv : L ≤ (m.vars [1]).start := by
          rcases rest with ⟨h, _⟩ | hv
          · rw [h] at hl; cases xs <;> simp at hl
          · exact hv
        cases x with
        | nil =>
          have hl : pos = [] :: (xs ++ [[.brackets (some 0) body]]) := hl
          subst hl
          refine after_fore (r := (.goto ⟨xs ++ [[.brackets (some 0) body]], false, q⟩, m)) hb hv hs (fun c' h => ?_) (fun _ _ _ h => by cases h)
          cases h
          refine ⟨?_, .inr (.inr ⟨xs, rfl, fun l hl => hx l (by simp [hl])⟩)⟩
          show L ≤ q ∨ Under _
          cases left with
          | true =>
            rcases hf _ _ rfl with h | ⟨_, h⟩
            · exact .inl h
            · exact .inr h
          | false =>
            have hf : L ≤ q ∨ Under ([] :: (xs ++ [[.brackets (some 0) body]])) := hf
            rcases hf with h | h
            · exact .inl h
            · rcases h.inv with ⟨_, _, h, _⟩ | ⟨_, h⟩
              · cases h
              · exact .inr h
        | cons n ns =>
          have hl : pos = (n :: ns) :: (xs ++ [[.brackets (some 0) body]]) := hl
          subst hl
          exact node_fore he hm c0 c1 hin hf hb hv hs

theorem run_fore {env : Env} {H L : Int} (he : EnvOk env H) (hL : 0 ≤ L) {body : List Node} (hb : fwd body = true) (fuel : Nat) :
    ∀ {st : State} {r : End × Mem}, StateOk env H st → Fore L body st → run env fuel st = some r → Bnd L r.2 := by
  induction fuel with
  | zero => intro st r _ _ h; simp [run] at h
  | succ fuel ih =>
    intro st r hok hs h
    have := step_fore he hL hb hok hs
    have hok1 := step_ok he hok
    rw [run] at h
    cases hst : step env st with
    | inl st1 => rw [hst] at h this hok1; exact ih hok1 this h
    | inr r1 => rw [hst] at h this; cases h; exact this

theorem fore_start {L : Int} {body : List Node} {pos : Int} {m : Mem} (h : L ≤ pos) (hm : Bnd L m) :
    Fore L body ⟨⟨[[.brackets (some 0) body]], true, pos⟩, none, m, []⟩ :=
  ⟨hm, .inr ⟨rfl, h, rfl, rfl⟩, ⟨fun _ _ _ => .inl h, .inr (.inr ⟨[], rfl, by simp⟩)⟩, by simp, fun h => absurd rfl h⟩

theorem tries_fore {env : Env} {H L : Int} (he : EnvOk env H) (hL : 0 ≤ L) (body : List Node) (hb : fwd body = true) (fuel : Nat) (keep : Bool) (n : Nat) :
    ∀ (pos : Int) (m : Mem) (out : Out), L ≤ pos → pos + n ≤ H → MOk env H m.m → Bnd L m →
      tries env [[.brackets (some 0) body]] fuel keep n pos m = some out → out.m.s 0 = -1 ∨ L ≤ out.m.s 0 := by
  induction n with
  | zero =>
    intro pos m out h0 h1 hm hbd h
    rw [tries.eq_def] at h; dsimp only at h
    cases hr : run env fuel ⟨⟨[[.brackets (some 0) body]], true, pos⟩, none, m, []⟩ with
    | none => rw [hr] at h; cases h
    | some r =>
      obtain ⟨e, m1⟩ := r
      have b := run_fore he hL hb fuel (stateOk_start (by omega) (by omega) hm) (fore_start h0 hbd) hr
      rw [hr] at h
      cases e with
      | oob => cases h; exact b.1
      | ret v => cases v <;> (cases h; exact b.1)
  | succ n ih =>
    intro pos m out h0 h1 hm hbd h
    rw [tries.eq_def] at h; dsimp only at h
    cases hr : run env fuel ⟨⟨[[.brackets (some 0) body]], true, pos⟩, none, m, []⟩ with
    | none => rw [hr] at h; cases h
    | some r =>
      obtain ⟨e, m1⟩ := r
      have a := run_ok he fuel (stateOk_start (by omega) (by omega) hm) hr
      have b := run_fore he hL hb fuel (stateOk_start (by omega) (by omega) hm) (fore_start h0 hbd) hr
      rw [hr] at h
      cases e with
      | oob => cases h; exact b.1
      | ret v => cases v with
        | false => exact ih (pos + 1) m1 out (by omega) (by omega) a.2 b h
        | true => cases h; exact b.1

/-- a successful call of `parse` reports a whole match that begins at the position given or after it and ends within the range searched,
for every expression without `\m`, `\M` inside look-behinds, if no `\m`, `\M` of an earlier call is left in the object -/
theorem parse_forward (chars : Chars) (x : Expr) (hx : fwd x.body = true) (hc : 0 < x.cMatch) (fuel : Nat) (o : Obj) (a : Args) (mtch : Matches) (out : Out)
    (h0 : 0 ≤ a.pos) (h1 : a.pos ≤ a.text.length) (h2 : a.eol ≤ a.text.length) (hb : TraceOk a.back)
    (ho : o.startChange = false ∧ o.endChange = false) (h : parse chars x fuel o a mtch = some out) (hr : out.res = .ret true) :
    a.pos ≤ out.m.s 0 ∧ out.m.s 0 ≤ out.m.e 0 ∧ out.m.e 0 ≤ max a.pos a.eol := by
  obtain ⟨r1, r2⟩ := C28_inside_the_text chars x fuel o a mtch out h0 h1 h2 hb hc h
  obtain ⟨_, _, g1, g2, _, g3⟩ := r2 hr
  have g3 := g3 ho.1 ho.2
  refine ⟨?_, g1, g2⟩
  have he : EnvOk (envOf chars x a) (max a.pos a.eol) := ⟨by show a.eol ≤ _; omega, by show _ ≤ (a.text.length : Int); omega, hb⟩
  have hm : MOk (envOf chars x a) (max a.pos a.eol) (clearMatches x mtch) := by
    refine ⟨fun h => ?_, fun i _ hi => ?_, fun i hi => ?_⟩
    · have h : 0 < x.cMatch := h
      simp [clearMatches, h, Pt]
    · have hi : i < x.cMatch := hi
      simp [clearMatches, hi, Inside]
    · have hi : i < x.cnMatch := hi
      simp [clearMatches, hi, Inside]
  have hbd : Bnd a.pos ⟨o.vars, clearMatches x mtch, o.startChange, o.endChange⟩ := by
    refine ⟨.inl ?_, .inl ?_⟩ <;> simp [clearMatches, hc]
  have fin : ∀ {n : Nat} {out : Out}, a.pos + n ≤ max a.pos a.eol →
      tries (envOf chars x a) x.root fuel o.moves n a.pos ⟨o.vars, clearMatches x mtch, o.startChange, o.endChange⟩ = some out →
      out.m.s 0 = -1 ∨ a.pos ≤ out.m.s 0 :=
    fun hn ht => tries_fore he h0 x.body hx fuel o.moves _ a.pos _ _ (Int.le_refl _) hn hm hbd ht
  suffices out.m.s 0 = -1 ∨ a.pos ≤ out.m.s 0 by omega
  unfold parse at h
  dsimp only at h
  split at h
  · cases h; cases hr
  · split at h
    · exact fin (by omega) h
    · obtain ⟨b, hq⟩ := quickCheck_ok he h0 (firstOf x.body)
      rw [hq] at h
      cases b with
      | false => cases h; cases hr
      | true => exact fin (by omega) h

end Verif.RegExp
