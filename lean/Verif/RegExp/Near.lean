import Verif.RegExp.Marks

/-!
# Where a match begins

An expression without `\m` that is tried at one position reports a whole match that begins there.
-/
namespace Verif.RegExp

theorem execNode_s0 (env : Env) (n : Node) (ns : List Node) (up : List (List Node)) (left : Bool) (q : Int) (m : Mem)
    (hz : ∀ b, n ≠ .brackets (some 0) b) (hl : isM .start n = false) : (execNode env n ns up left q m).2.m.s 0 = m.m.s 0 := by
  cases n with
  | msym k =>
    show (markMeta m q k).m.s 0 = _
    cases k <;> first | rfl | (simp [isM] at hl)
  | brackets idx body =>
    cases left with
    | true => rfl
    | false =>
      cases idx with
      | none => rfl
      | some i =>
        have hi : 0 ≠ i := by rintro rfl; exact hz body rfl
        exact close_s_other _ _ _ _ _ hi
  | named idx body => cases left <;> cases idx <;> rfl
  | ahead body => cases left <;> rfl
  | nahead body => cases left <;> rfl
  | behind k body => cases left <;> simp only [execNode] <;> repeat' split
                     all_goals rfl
  | nbehind k body => cases left <;> simp only [execNode] <;> repeat' split
                      all_goals rfl
  | or body => cases left <;> rfl
  | rangeN s body => simp only [execNode, execRangeN]; repeat' split
                     all_goals rfl
  | rangeNM s e body => simp only [execNode, execRangeNM]; repeat' split
                        all_goals rfl
  | ngRangeN s body => simp only [execNode, execNGRangeN]; repeat' split
                       all_goals rfl
  | ngRangeNM s e body => simp only [execNode, execRangeNM]; repeat' split
                          all_goals rfl
  | empty | symb _ | word _ | enum _ | nenum _ | bkTrace _ | bkTraceN _ | bkTraceName _ | bkTraceNName _ | bkBrack _ | bkBrackName _ => rfl

/-- the start of the whole match is unset or not after `L`, and so is the start of the outermost bracket once it is entered, which happens
only once -/
def Near (L : Int) (body : List Node) (st : State) : Prop :=
  st.m.m.s 0 ≤ L ∧ (((st.m.vars [1]).start ≤ L ∧ (st.act = none → st.c.pos = [[.brackets (some 0) body]] → st.c.left = false)) ∨
    (st.c = ⟨[[.brackets (some 0) body]], true, st.c.q⟩ ∧ st.c.q ≤ L ∧ st.act = none))

def NOut (L : Int) (body : List Node) : State ⊕ (End × Mem) → Prop
  | .inl st => Near L body st
  | .inr r => r.2.m.s 0 ≤ L

theorem after_near {L : Int} {body : List Node} {c : Cfg} {stack : List Elem} {r : Res × Mem} (h1 : r.2.m.s 0 ≤ L) (h2 : (r.2.vars [1]).start ≤ L)
    (hg : ∀ c', (r.1 = .goto c' ∨ ∃ t f, r.1 = .call c' t f) → c'.pos = [[.brackets (some 0) body]] → c'.left = false) : NOut L body (after c stack r) := by
  obtain ⟨r1, m⟩ := r
  have hp : ∀ b, NOut L body (pop b m stack) := by
    intro b
    cases stack with
    | nil => exact h1
    | cons x xs => exact ⟨h1, .inl ⟨h2, fun h => by cases h⟩⟩
  cases r1 with
  | fail => exact hp _
  | succ => exact hp _
  | oob => exact h1
  | goto c' => exact ⟨h1, .inl ⟨h2, fun _ => hg c' (.inl rfl)⟩⟩
  | call c' t f => exact ⟨h1, .inl ⟨h2, fun _ => hg c' (.inr ⟨t, f, rfl⟩)⟩⟩

theorem not_root {x : List Node} {up : List (List Node)} {body : List Node} (h : up ≠ []) : x :: up ≠ [[.brackets (some 0) body]] := by
  intro he
  simp only [List.cons.injEq] at he
  exact h he.2

theorem step_near {env : Env} {L : Int} {body : List Node} {st : State} (hf : Fore L body st) (hl : StIn (fun l => lacks .start l = true) st)
    (h : Near L body st) : NOut L body (step env st) := by
  obtain ⟨c, act, m, stack⟩ := st
  obtain ⟨pos, left, q⟩ := c
  obtain ⟨hs, hv⟩ := h
  have hs : m.m.s 0 ≤ L := hs
  rw [step_eq]
  cases act with
  | some a =>
    have hv1 : (m.vars [1]).start ≤ L := by
      rcases hv with hv | hv
      · exact hv.1
      · cases hv.2.2
    have hs1 : m.m.s 0 ≤ L := hs
    clear hv hs
    have hin : Inner body pos := hf.act (by simp)
    match pos, hin with
    | [], hin => obtain ⟨xs, h, h', _⟩ := hin; cases xs <;> simp at h
    | [] :: up, _ => exact after_near (r := (.succ, m)) hs1 hv1 (fun c' h => by rcases h with h | ⟨_, _, h⟩ <;> cases h)
    | (n :: ns) :: up, hin =>
      obtain ⟨_, w2, _, _⟩ := hin.inv
      have hset : ∀ v, ((m.set (addr ((n :: ns) :: up)) v).vars [1]).start ≤ L := by
        intro v
        have : (m.set (addr ((n :: ns) :: up)) v).vars [1] = m.vars [1] := by
          simp only [Mem.set]; rw [if_neg (Ne.symm (addr_ne_one w2))]
        rw [this]; exact hv1
      refine after_near ?_ ?_ ?_
      · show (resume a ⟨(n :: ns) :: up, left, q⟩ m).2.m.s 0 ≤ L
        cases a <;> first | exact hs1 | (simp only [resume]; split <;> exact hs1)
      · show ((resume a ⟨(n :: ns) :: up, left, q⟩ m).2.vars [1]).start ≤ L
        cases a <;> first | exact hv1 | exact hset _ | (simp only [resume]; split; exact hv1; exact hset _)
      · intro c' hc' hp
        exfalso
        have hc' : (resume a ⟨(n :: ns) :: up, left, q⟩ m).1 = .goto c' ∨ ∃ t f, (resume a ⟨(n :: ns) :: up, left, q⟩ m).1 = .call c' t f := hc'
        cases a <;> simp [resume] at hc'
        all_goals
          first
          | (subst hc'; exact not_root w2 hp)
          | (subst hc'; exact not_root (by simp) hp)
          | (rw [← hc'.1] at hp; exact not_root w2 hp)
          | (rw [← hc'.1] at hp; exact not_root (by simp) hp)
  | none =>
    have hlow : Low [[.brackets (some 0) body]] pos := hf.cur.2
    rcases hlow with rfl | rfl | ⟨xs, rfl, hx⟩
    · have hv : (m.vars [1]).start ≤ L := by
        rcases hv with hv | hv
        · exact hv.1
        · have := hv.1; simp at this
      exact after_near (r := (.succ, m)) hs hv (fun c' h => by rcases h with h | ⟨_, _, h⟩ <;> cases h)
    · have hv : (m.vars [1]).start ≤ L := by
        rcases hv with hv | hv
        · exact hv.1
        · have := hv.1; simp at this
      refine after_near (r := (.goto ⟨[], false, q⟩, m)) hs hv (fun c' h => ?_)
      rcases h with h | ⟨_, _, h⟩ <;> cases h
      intro _; rfl
    · cases xs with
      | nil =>
        have hv' : left = true ∧ q ≤ L ∨ (left = false ∧ (m.vars [1]).start ≤ L) := by
          rcases hv with hv | hv
          · exact .inr ⟨hv.2 rfl rfl, hv.1⟩
          · have h1 : left = true := by have := hv.1; simp at this; exact this
            exact .inl ⟨h1, hv.2.1⟩
        rcases hv' with ⟨rfl, hq⟩ | ⟨rfl, hv1⟩
        · refine after_near (r := (.goto ⟨body :: [[.brackets (some 0) body]], true, q⟩,
            m.set (addr [[.brackets (some 0) body]]) { m.vars (addr [[.brackets (some 0) body]]) with start := q })) hs ?_ (fun c' h => ?_)
          · show ((m.set [1] _).vars [1]).start ≤ L
            simp only [Mem.set, if_true]
            exact hq
          · rcases h with h | ⟨_, _, h⟩ <;> cases h
            intro hp
            exact absurd hp (not_root (by simp))
        · refine after_near (r := (.goto ⟨[[]], true, q⟩, m.close 0 (m.vars (addr [[.brackets (some 0) body]])).start q)) ?_ hv1 (fun c' h => ?_)
          · show (m.close 0 (m.vars [1]).start q).m.s 0 ≤ L
            rw [close_s_same]
            generalize (m.close 0 (m.vars [1]).start q).m.e 0 = e
            split <;> omega
          · rcases h with h | ⟨_, _, h⟩ <;> cases h
            intro hp
            simp at hp
      | cons x xs =>
        have hne : xs ++ [[Node.brackets (some 0) body]] ≠ [] := by simp
        have hv1 : (m.vars [1]).start ≤ L := by
          rcases hv with hv | hv
          · exact hv.1
          · have := hv.1
            simp only [Cfg.mk.injEq] at this
            exact absurd this.1 (not_root hne)
        cases x with
        | nil =>
          refine after_near (r := (.goto ⟨xs ++ [[.brackets (some 0) body]], false, q⟩, m)) hs hv1 (fun c' h => ?_)
          rcases h with h | ⟨_, _, h⟩ <;> cases h
          intro _; rfl
        | cons n ns =>
          have hfn : fwdN n = true ∧ fwd ns = true := by simpa [fwd] using hx (n :: ns) (by simp)
          have hz : ∀ b, n ≠ .brackets (some 0) b := by
            rintro b rfl
            simp [fwdN] at hfn
          have hlk : isM .start n = false := by
            have : lacks .start (n :: ns) = true := hl.cur _ (by simp)
            rw [lacks, Bool.and_eq_true] at this
            cases n <;> first | rfl | skip
            simpa [lacksN, isM] using this.1
          have sh := execNode_shape env n ns (xs ++ [[.brackets (some 0) body]]) left q m
          have tc := execNode_touch env n ns (xs ++ [[.brackets (some 0) body]]) left q m hz
          refine after_near (r := execNode env n ns (xs ++ [[.brackets (some 0) body]]) left q m) ?_ ?_ ?_
          · rw [execNode_s0 _ _ _ _ _ _ _ hz hlk]; exact hs
          · rw [tc.vars _ (Ne.symm (addr_ne_one hne))]; exact hv1
          · intro c' hc' hp
            rcases hc' with hc' | ⟨t, f, hc'⟩
            · rw [hc'] at sh
              rcases sh with ⟨⟨q', rfl⟩, _⟩ | ⟨⟨q', rfl⟩, _⟩ | ⟨⟨q', rfl⟩, _⟩
              · exact absurd hp (not_root hne)
              · exact absurd hp (not_root (by simp))
              · rfl
            · rw [hc'] at sh
              rcases sh.2.2 with ⟨⟨q', rfl⟩, _⟩ | ⟨⟨q', rfl⟩, _⟩
              · exact absurd hp (not_root hne)
              · exact absurd hp (not_root (by simp))

theorem run_near {env : Env} {H L : Int} (he : EnvOk env H) (hL : 0 ≤ L) {body : List Node} (hb : fwd body = true) (fuel : Nat) :
    ∀ {st : State} {r : End × Mem}, StateOk env H st → Fore L body st → StIn (fun l => lacks .start l = true) st → Near L body st →
      run env fuel st = some r → r.2.m.s 0 ≤ L := by
  induction fuel with
  | zero => intro st r _ _ _ _ h; simp [run] at h
  | succ fuel ih =>
    intro st r hok hs hl hn h
    have h1 := step_fore he hL hb hok hs
    have h2 := step_ok he hok
    have h3 := step_in (lacks_inherited .start) (env := env) hl
    have h4 := step_near (env := env) hs hl hn
    rw [run] at h
    cases hst : step env st with
    | inl st1 => rw [hst] at h h1 h2 h3 h4; exact ih h2 h1 h3 h4 h
    | inr r1 => rw [hst] at h h4; cases h; exact h4

/-- a successful call that tries one position only reports a whole match that begins there, for every expression without `\m`, and without
`\M` inside look-behinds, if no `\m`, `\M` of an earlier call is left in the object -/
theorem parse_begins (chars : Chars) (x : Expr) (hx : fwd x.body = true) (hl : lacks .start x.body = true) (hc : 0 < x.cMatch) (fuel : Nat) (o : Obj) (a : Args)
    (mtch : Matches) (out : Out) (h0 : 0 ≤ a.pos) (h1 : a.pos ≤ a.text.length) (h2 : a.eol ≤ a.text.length) (hb : TraceOk a.back)
    (ho : o.startChange = false ∧ o.endChange = false) (hmv : a.moves.getD o.moves = false)
    (h : parse chars x fuel o a mtch = some out) (hr : out.res = .ret true) : out.m.s 0 = a.pos := by
  have hge := (parse_forward chars x hx hc fuel o a mtch out h0 h1 h2 hb ho h hr).1
  have he : EnvOk (envOf chars x a) (max a.pos a.eol) := ⟨by show a.eol ≤ _; omega, by show _ ≤ (a.text.length : Int); omega, hb⟩
  have hm : MOk (envOf chars x a) (max a.pos a.eol) (clearMatches x mtch) := by
    refine ⟨fun h => ?_, fun i _ hi => ?_, fun i hi => ?_⟩
    · have h : 0 < x.cMatch := h
      simp [clearMatches, h, Pt]
    · have hi : i < x.cMatch := hi
      simp [clearMatches, hi, Inside]
    · have hi : i < x.cnMatch := hi
      simp [clearMatches, hi, Inside]
  have hbd : Bnd a.pos ⟨o.vars, clearMatches x mtch, o.startChange, o.endChange⟩ := by
    refine ⟨.inl ?_, .inl ?_⟩ <;> simp [clearMatches, hc]
  have hs0 : (clearMatches x mtch).s 0 = -1 := by simp [clearMatches, hc]
  have hin : StIn (fun l => lacks .start l = true) ⟨⟨x.root, true, a.pos⟩, none, ⟨o.vars, clearMatches x mtch, o.startChange, o.endChange⟩, []⟩ := by
    refine ⟨?_, by simp⟩
    intro l hl'
    simp only [Expr.root, List.mem_singleton] at hl'
    subst hl'
    simp [lacks, lacksN, hl]
  have fin : ∀ {out : Out}, tries (envOf chars x a) x.root fuel o.moves 0 a.pos ⟨o.vars, clearMatches x mtch, o.startChange, o.endChange⟩ = some out →
      out.m.s 0 ≤ a.pos := by
    intro out ht
    rw [tries.eq_def] at ht; dsimp only at ht
    cases hr : run (envOf chars x a) fuel ⟨⟨x.root, true, a.pos⟩, none, ⟨o.vars, clearMatches x mtch, o.startChange, o.endChange⟩, []⟩ with
    | none => rw [hr] at ht; cases ht
    | some r =>
      have b := run_near he h0 hx fuel (stateOk_start h0 (by omega) hm) (fore_start (Int.le_refl _) hbd) hin
        ⟨by show (clearMatches x mtch).s 0 ≤ _; omega, .inr ⟨rfl, Int.le_refl _, rfl⟩⟩ hr
      obtain ⟨e, m1⟩ := r
      rw [hr] at ht
      cases e with
      | oob => cases ht; exact b
      | ret v => cases v <;> (cases ht; exact b)
  suffices out.m.s 0 ≤ a.pos by omega
  unfold parse at h
  dsimp only at h
  rw [hmv] at h
  split at h
  · cases h; cases hr
  · simp only [Bool.false_eq_true, if_false] at h
    obtain ⟨b, hq⟩ := quickCheck_ok he h0 (firstOf x.body)
    rw [hq] at h
    cases b with
    | false => cases h; cases hr
    | true => exact fin h

/-! ## Fuel -/

theorem run_le {env : Env} {f f' : Nat} (hf : f ≤ f') : ∀ {st : State} {r : End × Mem}, run env f st = some r → run env f' st = some r := by
  induction f generalizing f' with
  | zero => intro st r h; simp [run] at h
  | succ f ih =>
    intro st r h
    obtain ⟨g, rfl⟩ : ∃ g, f' = g + 1 := ⟨f' - 1, by omega⟩
    rw [run] at h ⊢
    cases hst : step env st with
    | inr r1 => rw [hst] at h; exact h
    | inl st1 => rw [hst] at h; exact ih (by omega) h

theorem tries_le {env : Env} {root : List (List Node)} {f f' : Nat} (hf : f ≤ f') {keep : Bool} (n : Nat) : ∀ {pos : Int} {m : Mem} {out : Out},
    tries env root f keep n pos m = some out → tries env root f' keep n pos m = some out := by
  induction n with
  | zero =>
    intro pos m out h
    rw [tries.eq_def] at h ⊢; dsimp only at h ⊢
    cases hr : run env f ⟨⟨root, true, pos⟩, none, m, []⟩ with
    | none => rw [hr] at h; cases h
    | some r => rw [hr] at h; rw [run_le hf hr]; exact h
  | succ n ih =>
    intro pos m out h
    rw [tries.eq_def] at h ⊢; dsimp only at h ⊢
    cases hr : run env f ⟨⟨root, true, pos⟩, none, m, []⟩ with
    | none => rw [hr] at h; cases h
    | some r =>
      rw [hr] at h; rw [run_le hf hr]
      obtain ⟨e, m1⟩ := r
      cases e with
      | oob => exact h
      | ret v => cases v with
        | true => exact h
        | false => exact ih h

/-- a number of rounds that is enough makes every larger one enough, with the same result -/
theorem parse_le {chars : Chars} {x : Expr} {f f' : Nat} (hf : f ≤ f') {o : Obj} {a : Args} {mt : Matches} {out : Out}
    (h : parse chars x f o a mt = some out) : parse chars x f' o a mt = some out := by
  unfold parse at h ⊢
  dsimp only at h ⊢
  split at h
  · rename_i hx; rw [if_pos hx]; exact h
  · rename_i hx
    rw [if_neg hx]
    split at h
    · rename_i hm; rw [if_pos hm, if_pos hm]; exact tries_le hf _ h
    · rename_i hm
      rw [if_neg hm]
      split at h
      · exact h
      · exact h
      · rw [if_neg hm]; exact tries_le hf _ h

end Verif.RegExp
