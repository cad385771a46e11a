import Verif.RegExp.Sure

/-!
# The one stack all expressions share (C77)

`CRegExp::RegExpStack` and `RegExpStack_Size` are static: every expression of the process saves its choice points in one array, while the
number of cells in use (`count_elem`) is a field of the object, set to 0 by the constructor only. Verif.RegExp.Model has a list of its own for
every call in the place of the array; here is the array itself (cregexp.cpp:4-5, 795-851, 1529-1534; cregexp.h:178-179, 360-370).

* The array is a list of cells, `none` = a cell not written since the array was allocated. `memcpy` copies cells. `size` is
  `RegExpStack_Size`, kept apart from the length of the array. A null `RegExpStack` is the empty list.
* An access outside the array, or a read of a cell never written, is the outcome `broken`.
* Two calls in two threads are interleaved by whole rounds of the loop of lowParse (`play2`): less than what the hardware may do.
-/
namespace Verif.RegExp.Shared

/-- `RegExpStack`, `RegExpStack_Size` -/
structure Static where
  cells : List (Option Elem)
  size  : Nat

/-- before the first call (cregexp.cpp:4-5), and after `clearRegExpStack` (1529-1534) -/
def Static.none : Static := ⟨[], 0⟩

/-- `insert_stack` 820-831: the cell for the next element, growing the array; `count` = `count_elem`. `INIT_MEM_SIZE` = 512, `MEM_INC` = 128. -/
def Static.first (sh : Static) : Static := if sh.size = 0 then ⟨List.replicate 512 Option.none, 512⟩ else sh

def Static.grow (sh : Static) (count : Nat) : Static :=
  if sh.size = count then ⟨sh.cells.take count ++ List.replicate (sh.size + 128 - count) Option.none, sh.size + 128⟩ else sh

/-- `insert_stack` 816-837 -/
def Static.push (sh : Static) (count : Nat) (x : Elem) : Option (Static × Nat) :=
  let s := sh.first.grow count
  if count < s.cells.length then some (⟨s.cells.set count (some x), s.size⟩, count + 1) else Option.none

/-- lowParse with the array: `re`, `leftenter`, `toParse`, `action`, the memory, `count_elem` -/
structure SState where
  c   : Cfg
  act : Option Act
  m   : Mem
  count : Nat

/-- after a round -/
inductive Next where
  | go (sh : Static) (st : SState)
  | done (sh : Static) (count : Nat) (e : End) (m : Mem)
  | broken

/-- `check_stack(b)` 795-814, and the return with an empty stack (1303-1316) -/
def popS (sh : Static) (b : Bool) (m : Mem) (count : Nat) : Next :=
  match count with
  | 0 => .done sh 0 (.ret b) m
  | n + 1 =>
    match sh.cells[n]? with
    | some (some x) => .go sh ⟨x.c, some (if b then x.t else x.f), m, n⟩
    | _ => .broken

/-- `insert_stack` and the new position -/
def pushS (sh : Static) (count : Nat) (x : Elem) (c : Cfg) (m : Mem) : Next :=
  match sh.push count x with
  | some (s, n) => .go s ⟨c, Option.none, m, n⟩
  | Option.none => .broken

/-- one round of the loop of lowParse (862-1370) -/
def stepS (env : Env) (sh : Static) (st : SState) : Next :=
  let r := match st.act with
    | Option.none => exec env st.c st.m
    | some a => resume a st.c st.m
  match r.1 with
  | .fail => popS sh false r.2 st.count
  | .succ => popS sh true r.2 st.count
  | .goto c => .go sh ⟨c, Option.none, r.2, st.count⟩
  | .call c t f => pushS sh st.count ⟨st.c, t, f⟩ c r.2
  | .oob => .done sh st.count .oob r.2

/-- the answer of something that may not have ended yet, or have accessed the array wrongly -/
inductive Got (α : Type) where
  | fuel | broken | ok (a : α)

/-- `fuel` rounds of lowParse -/
def runS (env : Env) : Nat → Static → SState → Got (Static × Nat × End × Mem)
  | 0, _, _ => .fuel
  | fuel + 1, sh, st =>
    match stepS env sh st with
    | .go s st1 => runS env fuel s st1
    | .done s n e m => .ok (s, n, e, m)
    | .broken => .broken

/-- the loop of parseRE 1442-1451 -/
def triesS (env : Env) (root : List (List Node)) (fuel : Nat) (keep : Bool) : Nat → Int → Static → Nat → Mem → Got (Static × Nat × Out)
  | n, pos, sh, count, mem =>
    match runS env fuel sh ⟨⟨root, true, pos⟩, Option.none, mem, count⟩ with
    | .fuel => .fuel
    | .broken => .broken
    | .ok (s, k, .ret false, mem1) =>
      match n with
      | 0 => .ok (s, k, outOf (.ret false) mem1 keep)
      | n + 1 => triesS env root fuel keep n (pos + 1) s k mem1
    | .ok (s, k, r, mem1) => .ok (s, k, outOf r mem1 keep)

/-- `parse` 1455-1480 with `parseRE` 1424-1453 -/
def parseS (chars : Chars) (x : Expr) (fuel : Nat) (sh : Static) (count : Nat) (o : Obj) (a : Args) (mtch : Matches) : Got (Static × Nat × Out) :=
  let env := envOf chars x a
  let moves := a.moves.getD o.moves
  let mem : Mem := ⟨o.vars, mtch, o.startChange, o.endChange⟩
  if x.ok = false then .ok (sh, count, ⟨.ret false, mtch, o⟩)
  else
    let start := triesS env x.root fuel o.moves (if moves then (a.eol - a.pos).toNat else 0) a.pos sh count { mem with m := clearMatches x mtch }
    if moves then start
    else match quickCheck env (firstOf x.body) a.pos with
      | Option.none => .ok (sh, count, outOf .oob mem o.moves)
      | some false => .ok (sh, count, ⟨.ret false, mtch, o⟩)
      | some true => start

/-! ## One call at a time -/

/-- the array has the length noted, and its first cells are the stack -/
structure Holds (sh : Static) (count : Nat) (stack : List Elem) : Prop where
  len : sh.cells.length = sh.size
  cnt : count = stack.length
  room : count ≤ sh.size
  cells : sh.cells.take count = stack.reverse.map some

theorem Holds.empty {sh : Static} (h : sh.cells.length = sh.size) : Holds sh 0 [] := ⟨h, rfl, Nat.zero_le _, rfl⟩

theorem Holds.first {sh : Static} {count : Nat} {stack : List Elem} (h : Holds sh count stack) : Holds sh.first count stack := by
  unfold Static.first
  split
  · rename_i h0
    have hc : count = 0 := by have := h.room; omega
    have hs : stack = [] := by
      have := h.cnt
      cases stack with
      | nil => rfl
      | cons a l => simp at this; omega
    subst hc; subst hs
    exact Holds.empty List.length_replicate
  · exact h

theorem Holds.grow {sh : Static} {count : Nat} {stack : List Elem} (h : Holds sh count stack) :
    Holds (sh.grow count) count stack ∧ (0 < sh.size → count < (sh.grow count).size) := by
  unfold Static.grow
  have hl := h.len
  have hr := h.room
  split
  · rename_i h0
    refine ⟨⟨?_, h.cnt, ?_, ?_⟩, fun _ => ?_⟩
    · simp only [List.length_append, List.length_take, List.length_replicate]; omega
    · show count ≤ sh.size + 128; omega
    · show (sh.cells.take count ++ _).take count = _
      rw [List.take_append_of_le_length (by simp only [List.length_take]; omega), List.take_take, Nat.min_self]
      exact h.cells
    · show count < sh.size + 128; omega
  · rename_i h0
    exact ⟨h, fun _ => by omega⟩

theorem push_holds {sh : Static} {count : Nat} {stack : List Elem} (h : Holds sh count stack) (x : Elem) :
    ∃ s, sh.push count x = some (s, count + 1) ∧ Holds s (count + 1) (x :: stack) := by
  have h1 := h.first
  obtain ⟨h2, h3⟩ := h1.grow
  have hp : 0 < sh.first.size := by
    unfold Static.first
    split
    · show 0 < 512; omega
    · omega
  have h4 := h3 hp
  have h5 := h2.len
  refine ⟨⟨(sh.first.grow count).cells.set count (some x), (sh.first.grow count).size⟩, ?_, ?_, ?_, ?_, ?_⟩
  · unfold Static.push
    dsimp only
    rw [if_pos (by omega)]
  · simpa using h5
  · simp [h.cnt]
  · show count + 1 ≤ (sh.first.grow count).size; omega
  · show ((sh.first.grow count).cells.set count (some x)).take (count + 1) = _
    rw [List.take_add_one, List.take_set_of_le (Nat.le_refl _), h2.cells, List.getElem?_set_self (by omega)]
    simp

theorem pop_holds {sh : Static} {n : Nat} {x : Elem} {stack : List Elem} (h : Holds sh (n + 1) (x :: stack)) :
    sh.cells[n]? = some (some x) ∧ Holds sh n stack := by
  have hc := h.cnt
  have hr := h.room
  have hl := h.len
  have hn : n = stack.length := by simpa using hc
  have h1 := h.cells
  rw [List.take_add_one, List.reverse_cons, List.map_append] at h1
  have hlen : (sh.cells.take n).length = (stack.reverse.map some).length := by simp; omega
  obtain ⟨h2, h3⟩ := List.append_inj h1 hlen
  refine ⟨?_, hl, hn, by omega, h2⟩
  have : n < sh.cells.length := by omega
  rw [List.getElem?_eq_getElem this] at h3 ⊢
  simpa using h3

/-- a round with the array is a round with the list -/
theorem stepS_step (env : Env) {sh : Static} {c : Cfg} {act : Option Act} {m : Mem} {count : Nat} {stack : List Elem} (h : Holds sh count stack) :
    match step env ⟨c, act, m, stack⟩ with
    | .inl st => ∃ s n, stepS env sh ⟨c, act, m, count⟩ = .go s ⟨st.c, st.act, st.m, n⟩ ∧ Holds s n st.stack
    | .inr (e, m1) => ∃ s n, stepS env sh ⟨c, act, m, count⟩ = .done s n e m1 ∧ s.cells.length = s.size ∧ (e ≠ .oob → n = 0) := by
  have hpop : ∀ b mm, match pop b mm stack with
      | .inl st => ∃ s n, popS sh b mm count = .go s ⟨st.c, st.act, st.m, n⟩ ∧ Holds s n st.stack
      | .inr (e, m1) => ∃ s n, popS sh b mm count = .done s n e m1 ∧ s.cells.length = s.size ∧ (e ≠ .oob → n = 0) := by
    intro b mm
    cases stack with
    | nil =>
      have : count = 0 := by simpa using h.cnt
      subst this
      exact ⟨sh, 0, rfl, h.len, fun _ => rfl⟩
    | cons x xs =>
      have hc : count = xs.length + 1 := by simpa using h.cnt
      subst hc
      obtain ⟨h1, h2⟩ := pop_holds h
      refine ⟨sh, xs.length, ?_, h2⟩
      simp only [popS, h1]
  have key : ∀ r : Res × Mem, match (match r.1 with
        | .fail => pop false r.2 stack
        | .succ => pop true r.2 stack
        | .goto c => .inl ⟨c, Option.none, r.2, stack⟩
        | .call c1 t f => .inl ⟨c1, Option.none, r.2, ⟨c, t, f⟩ :: stack⟩
        | .oob => .inr (.oob, r.2) : State ⊕ (End × Mem)) with
      | .inl st => ∃ s n, (match r.1 with
          | .fail => popS sh false r.2 count
          | .succ => popS sh true r.2 count
          | .goto c => .go sh ⟨c, Option.none, r.2, count⟩
          | .call c1 t f => pushS sh count ⟨c, t, f⟩ c1 r.2
          | .oob => .done sh count .oob r.2 : Next) = .go s ⟨st.c, st.act, st.m, n⟩ ∧ Holds s n st.stack
      | .inr (e, m1) => ∃ s n, (match r.1 with
          | .fail => popS sh false r.2 count
          | .succ => popS sh true r.2 count
          | .goto c => .go sh ⟨c, Option.none, r.2, count⟩
          | .call c1 t f => pushS sh count ⟨c, t, f⟩ c1 r.2
          | .oob => .done sh count .oob r.2 : Next) = .done s n e m1 ∧ s.cells.length = s.size ∧ (e ≠ .oob → n = 0) := by
    rintro ⟨r, m1⟩
    cases r with
    | fail => exact hpop false m1
    | succ => exact hpop true m1
    | goto c1 => exact ⟨sh, count, rfl, h⟩
    | call c1 t f =>
      obtain ⟨s, hs, hh⟩ := push_holds h ⟨c, t, f⟩
      refine ⟨s, count + 1, ?_, hh⟩
      simp only [pushS, hs]
    | oob => exact ⟨sh, count, rfl, h.len, fun h => absurd rfl h⟩
  cases act with
  | none => exact key (exec env c m)
  | some a => exact key (resume a c m)

theorem runS_run (env : Env) (fuel : Nat) : ∀ {sh : Static} {c : Cfg} {act : Option Act} {m : Mem} {count : Nat} {stack : List Elem},
    Holds sh count stack →
    match run env fuel ⟨c, act, m, stack⟩ with
    | Option.none => runS env fuel sh ⟨c, act, m, count⟩ = .fuel
    | some (e, m1) => ∃ s n, runS env fuel sh ⟨c, act, m, count⟩ = .ok (s, n, e, m1) ∧ s.cells.length = s.size ∧ (e ≠ .oob → n = 0) := by
  induction fuel with
  | zero => intro sh c act m count stack h; rfl
  | succ fuel ih =>
    intro sh c act m count stack h
    have hs := stepS_step env (c := c) (act := act) (m := m) h
    rw [run, runS]
    cases hst : step env ⟨c, act, m, stack⟩ with
    | inl st =>
      rw [hst] at hs
      obtain ⟨s, n, h1, h2⟩ := hs
      rw [h1]
      exact ih h2
    | inr r =>
      rw [hst] at hs
      obtain ⟨s, n, h1, h2, h3⟩ := hs
      rw [h1]
      exact ⟨s, n, rfl, h2, h3⟩

theorem triesS_tries (env : Env) (root : List (List Node)) (fuel : Nat) (keep : Bool) (n : Nat) : ∀ {pos : Int} {sh : Static} {mem : Mem},
    sh.cells.length = sh.size →
    match tries env root fuel keep n pos mem with
    | Option.none => triesS env root fuel keep n pos sh 0 mem = .fuel
    | some out => ∃ s k, triesS env root fuel keep n pos sh 0 mem = .ok (s, k, out) ∧ s.cells.length = s.size ∧ (out.res ≠ .oob → k = 0) := by
  induction n with
  | zero =>
    intro pos sh mem h
    have hr := runS_run env fuel (c := ⟨root, true, pos⟩) (act := Option.none) (m := mem) (Holds.empty h)
    rw [tries.eq_def, triesS.eq_def]; dsimp only
    cases hrun : run env fuel ⟨⟨root, true, pos⟩, Option.none, mem, []⟩ with
    | none => rw [hrun] at hr; dsimp only at hr; rw [hr]
    | some r =>
      obtain ⟨e, m1⟩ := r
      rw [hrun] at hr
      obtain ⟨s, k, h1, h2, h3⟩ := hr
      rw [h1]
      cases e with
      | ret b => cases b <;> exact ⟨s, k, rfl, h2, h3⟩
      | oob => exact ⟨s, k, rfl, h2, h3⟩
  | succ n ih =>
    intro pos sh mem h
    have hr := runS_run env fuel (c := ⟨root, true, pos⟩) (act := Option.none) (m := mem) (Holds.empty h)
    rw [tries.eq_def, triesS.eq_def]; dsimp only
    cases hrun : run env fuel ⟨⟨root, true, pos⟩, Option.none, mem, []⟩ with
    | none => rw [hrun] at hr; dsimp only at hr; rw [hr]
    | some r =>
      obtain ⟨e, m1⟩ := r
      rw [hrun] at hr
      obtain ⟨s, k, h1, h2, h3⟩ := hr
      rw [h1]
      cases e with
      | ret b =>
        cases b with
        | false =>
          have : k = 0 := h3 (by simp)
          subst this
          exact ih h2
        | true => exact ⟨s, k, rfl, h2, h3⟩
      | oob => exact ⟨s, k, rfl, h2, h3⟩

/-- a call with the shared array, whatever earlier calls have left in it, is a call with a stack of its own; nothing is read or written outside
the array, and `count_elem` is 0 again -/
theorem parseS_parse (chars : Chars) (x : Expr) (fuel : Nat) (sh : Static) (hs : sh.cells.length = sh.size) (o : Obj) (a : Args) (mt : Matches) :
    match parse chars x fuel o a mt with
    | Option.none => parseS chars x fuel sh 0 o a mt = .fuel
    | some out => ∃ s k, parseS chars x fuel sh 0 o a mt = .ok (s, k, out) ∧ s.cells.length = s.size ∧ (out.res ≠ .oob → k = 0) := by
  unfold parse parseS
  dsimp only
  have ht := triesS_tries (envOf chars x a) x.root fuel o.moves (if a.moves.getD o.moves then (a.eol - a.pos).toNat else 0) (pos := a.pos)
    (mem := ⟨o.vars, clearMatches x mt, o.startChange, o.endChange⟩) hs
  by_cases h1 : x.ok = false
  · rw [if_pos h1, if_pos h1]; exact ⟨sh, 0, rfl, hs, fun _ => rfl⟩
  · rw [if_neg h1, if_neg h1]
    generalize a.moves.getD o.moves = mv at ht ⊢
    cases mv with
    | true => exact ht
    | false =>
      cases quickCheck (envOf chars x a) (firstOf x.body) a.pos with
      | none => exact ⟨sh, 0, rfl, hs, fun _ => rfl⟩
      | some b =>
        cases b with
        | false => exact ⟨sh, 0, rfl, hs, fun _ => rfl⟩
        | true => exact ht

/-! ## A process: many expressions, one array -/

/-- an expression of the process: the compiled form, the fields of the object, `count_elem` -/
structure Thing where
  x : Expr
  o : Obj
  count : Nat

/-- what the process does: a match of expression `i`, `clearRegExpStack` (a ParserFactory is destroyed, ParserFactoryImpl.cpp:15) -/
inductive Ev where
  | call (i : Nat) (fuel : Nat) (a : Args) (mt : Matches)
  | clear

/-- `parse` calls one after another, all with the one array: the array and the objects afterwards; `broken` also if a call reads outside its
text -/
def after (chars : Chars) : List Ev → Static → (Nat → Thing) → Got (Static × (Nat → Thing))
  | [], sh, w => .ok (sh, w)
  | .clear :: l, _, w => after chars l Static.none w
  | .call i fuel a mt :: l, sh, w =>
    match parseS chars (w i).x fuel sh (w i).count (w i).o a mt with
    | .fuel => .fuel
    | .broken => .broken
    | .ok (s, k, out) => if out.res = .oob then .broken else after chars l s (fun j => if j = i then ⟨(w i).x, out.obj, k⟩ else w j)

/-- calls within their texts -/
def EvOk : Ev → Prop
  | .call _ _ a _ => 0 ≤ a.pos ∧ a.pos ≤ a.text.length ∧ a.eol ≤ a.text.length ∧ TraceOk a.back
  | .clear => True

/-- the calls of expression `i`, in order -/
def callsOf (i : Nat) (l : List Ev) : List (Nat × Args × Matches) :=
  l.filterMap fun
    | .call j fuel a mt => if j = i then some (fuel, a, mt) else Option.none
    | .clear => Option.none

theorem after_ok (chars : Chars) : ∀ (hist : List Ev) (sh : Static) (w : Nat → Thing), sh.cells.length = sh.size →
    (∀ i, (w i).count = 0) → (∀ i, 0 < (w i).x.cMatch) → (∀ e ∈ hist, EvOk e) →
    match after chars hist sh w with
    | .fuel => True
    | .broken => False
    | .ok (sh', w') => sh'.cells.length = sh'.size ∧ ∀ i, (w' i).count = 0 ∧ (w' i).x = (w i).x ∧
        uses chars (w i).x (callsOf i hist) (w i).o = some (w' i).o := by
  intro hist
  induction hist with
  | nil => intro sh w hs hc _ _; exact ⟨hs, fun i => ⟨hc i, rfl, rfl⟩⟩
  | cons ev l ih =>
    intro sh w hs hc hx he
    cases ev with
    | clear =>
      rw [after]
      have := ih Static.none w rfl hc hx (fun e h => he e (List.mem_cons_of_mem _ h))
      exact this
    | call i fuel a mt =>
      obtain ⟨e1, e2, e3, e4⟩ := he _ (List.mem_cons_self ..)
      rw [after]
      have hp := parseS_parse chars (w i).x fuel sh hs (w i).o a mt
      rw [hc i]
      cases hpar : parse chars (w i).x fuel (w i).o a mt with
      | none => rw [hpar] at hp; dsimp only at hp; rw [hp]; trivial
      | some out =>
        rw [hpar] at hp
        obtain ⟨s, k, h1, h2, h3⟩ := hp
        rw [h1]
        have ho := (C28_inside_the_text chars (w i).x fuel (w i).o a mt out e1 e2 e3 e4 (hx i) hpar).1
        dsimp only
        rw [if_neg ho]
        have hk := h3 ho
        subst hk
        have := ih s (fun j => if j = i then ⟨(w i).x, out.obj, 0⟩ else w j) h2
          (fun j => by split <;> [rfl; exact hc j]) (fun j => by split <;> [exact hx i; exact hx j])
          (fun e h => he e (List.mem_cons_of_mem _ h))
        cases ha : after chars l s (fun j => if j = i then ⟨(w i).x, out.obj, 0⟩ else w j) with
        | fuel => trivial
        | broken => rw [ha] at this; exact this
        | ok r =>
          rw [ha] at this
          refine ⟨this.1, fun j => ?_⟩
          have hj := this.2 j
          by_cases hji : j = i
          · subst hji
            simp only [if_pos] at hj
            refine ⟨hj.1, hj.2.1, ?_⟩
            have hcalls : callsOf j (.call j fuel a mt :: l) = (fuel, a, mt) :: callsOf j l := by
              unfold callsOf
              rw [List.filterMap_cons]
              simp
            rw [hcalls, uses, hpar]
            exact hj.2.2
          · simp only [if_neg hji] at hj
            refine ⟨hj.1, hj.2.1, ?_⟩
            have hcalls : callsOf j (.call i fuel a mt :: l) = callsOf j l := by
              unfold callsOf
              rw [List.filterMap_cons]
              simp [Ne.symm hji]
            rw [hcalls]
            exact hj.2.2

/-- C77, one call at a time: in a process with any number of expressions, after any history of matches (of any of them, on any texts) and of
clearing the stack, the next match of any expression gives what that expression gives alone, when it is new, with a stack of its own; and neither
the history nor that match ever touches memory outside the shared array or reads a cell of it that was not written. (`tidy`: each of `\m`, `\M`
does not occur in the expression or is passed on every way; else C30 fails.) -/
theorem C77_one_call_at_a_time_partial (chars : Chars) (hist : List Ev) (w : Nat → Thing) (hc : ∀ i, (w i).count = 0)
    (hx : ∀ i, 0 < (w i).x.cMatch) (he : ∀ e ∈ hist, EvOk e) :
    after chars hist Static.none w ≠ .broken ∧
    ∀ sh' w', after chars hist Static.none w = .ok (sh', w') →
      ∀ i fuel a mt mt', tidy (w i).x = true →
        match parseS chars (w' i).x fuel sh' (w' i).count (w' i).o a mt with
        | .fuel => parse chars (w i).x fuel (w i).o a mt' = Option.none
        | .broken => False
        | .ok (_, _, out) => SameResult (w i).x (some out) (parse chars (w i).x fuel (w i).o a mt') := by
  have h := after_ok chars hist Static.none w rfl hc hx he
  refine ⟨fun hb => by rw [hb] at h; exact h, fun sh' w' ha i fuel a mt mt' ht => ?_⟩
  rw [ha] at h
  obtain ⟨h1, h2⟩ := h
  obtain ⟨h3, h4, h5⟩ := h2 i
  rw [h3, h4]
  have hp := parseS_parse chars (w i).x fuel sh' h1 (w' i).o a mt
  have hs := C30_tidy_calls_do_not_depend_on_earlier_calls_partial chars (w i).x ht (callsOf i hist) (w i).o (w' i).o h5 fuel a mt mt'
  cases hpar : parse chars (w i).x fuel (w' i).o a mt with
  | none =>
    rw [hpar] at hp hs
    dsimp only at hp
    rw [hp]
    cases hq : parse chars (w i).x fuel (w i).o a mt' with
    | none => rfl
    | some q => rw [hq] at hs; exact absurd hs id
  | some out =>
    rw [hpar] at hp hs
    obtain ⟨s, k, e1, -, -⟩ := hp
    rw [e1]
    exact hs

/-! ## Two threads -/

/-- a thread: inside lowParse, returned, or gone wrong -/
inductive Proc where
  | on (env : Env) (st : SState)
  | off (e : End) (m : Mem)
  | broken

/-- one round of a thread -/
def Proc.round (sh : Static) : Proc → Static × Proc
  | .on env st =>
    match stepS env sh st with
    | .go s st1 => (s, .on env st1)
    | .done s _ e m => (s, .off e m)
    | .broken => (sh, .broken)
  | .off e m => (sh, .off e m)
  | .broken => (sh, .broken)

/-- who runs next: the first thread, the second thread, or a third one that calls `clearRegExpStack` -/
inductive Turn where
  | first | second | clear

/-- two threads inside `parse`, of different expressions, with one array -/
def play2 : List Turn → Static → Proc → Proc → Proc × Proc
  | [], _, p, q => (p, q)
  | .first :: l, sh, p, q => play2 l (p.round sh).1 (p.round sh).2 q
  | .second :: l, sh, p, q => play2 l (q.round sh).1 p (q.round sh).2
  | .clear :: l, _, p, q => play2 l Static.none p q

/-- `parse` with `posMoves` false, after quickCheck: lowParse at one position (1424-1446) -/
def begin_ (chars : Chars) (x : Expr) (o : Obj) (a : Args) (mt : Matches) : Proc :=
  .on (envOf chars x a) ⟨⟨x.root, true, a.pos⟩, Option.none, ⟨o.vars, clearMatches x mt, o.startChange, o.endChange⟩, 0⟩

mutual
/-- no alternatives, repetitions, look-aheads or look-behinds -/
def straight : List Node → Bool
  | [] => true
  | n :: l => straightN n && straight l
def straightN : Node → Bool
  | .brackets _ b | .named _ b => straight b
  | .ahead _ | .nahead _ | .behind _ _ | .nbehind _ _ | .or _ | .rangeN _ _ | .rangeNM _ _ _ | .ngRangeN _ _ | .ngRangeNM _ _ _ => false
  | .empty | .msym _ | .symb _ | .word _ | .enum _ | .nenum _ | .bkTrace _ | .bkTraceN _ | .bkTraceName _ | .bkTraceNName _ | .bkBrack _
  | .bkBrackName _ => true
end

theorem straight_inherited : Inherited fun l => straight l = true := by
  refine ⟨fun n ns h => ?_, fun n ns h => ?_⟩ <;> rw [straight, Bool.and_eq_true] at h
  · exact h.2
  · obtain ⟨h, -⟩ := h
    cases n <;> simp_all [straightN, Node.body, straight]

theorem straight_no_call {env : Env} {c c' : Cfg} {m : Mem} {t f : Act} (h : AllIn (fun l => straight l = true) c.pos) :
    (exec env c m).1 ≠ .call c' t f := by
  unfold exec
  have ht : ∀ ns up (k : Chk), tested ns up k ≠ .call c' t f := by intro ns up k; cases k <;> simp [tested]
  split
  · simp
  · simp
  · rename_i n ns up hp
    have hn := h (n :: ns) (by rw [hp]; exact List.mem_cons_self ..)
    simp only [straight, Bool.and_eq_true] at hn
    obtain ⟨hn, -⟩ := hn
    cases n <;> simp only [straightN, Bool.false_eq_true] at hn <;> simp only [execNode]
    all_goals first
      | apply ht
      | (split <;> [simp; (split <;> simp)])
      | simp

/-- a thread as it should be: what its rounds so far give with a stack of its own -/
def Own (env : Env) (st0 : State) (sh : Static) : Proc → Prop
  | .on env' st => env' = env ∧ ∃ stack k, Holds sh st.count stack ∧
      ∀ fuel, run env (fuel + k) st0 = run env fuel ⟨st.c, st.act, st.m, stack⟩
  | .off e m => ∃ k, run env k st0 = some (e, m)
  | .broken => False

/-- the same for a thread that saves nothing -/
def OwnS (env : Env) (st0 : State) : Proc → Prop
  | .on env' st => env' = env ∧ st.count = 0 ∧ st.act = Option.none ∧ AllIn (fun l => straight l = true) st.c.pos ∧
      ∃ k, ∀ fuel, run env (fuel + k) st0 = run env fuel ⟨st.c, st.act, st.m, []⟩
  | .off e m => ∃ k, run env k st0 = some (e, m)
  | .broken => False

theorem Own.round {env : Env} {st0 : State} {sh : Static} {p : Proc} (hl : sh.cells.length = sh.size) (h : Own env st0 sh p) :
    Own env st0 (p.round sh).1 (p.round sh).2 ∧ (p.round sh).1.cells.length = (p.round sh).1.size := by
  cases p with
  | broken => exact absurd h id
  | off e m => exact ⟨h, hl⟩
  | on env' st =>
    obtain ⟨rfl, stack, k, h1, h2⟩ := h
    have hs := stepS_step env' (c := st.c) (act := st.act) (m := st.m) h1
    have hr : ∀ fuel, run env' (fuel + (k + 1)) st0 = match step env' ⟨st.c, st.act, st.m, stack⟩ with
        | .inr r => some r
        | .inl st1 => run env' fuel st1 := by
      intro fuel
      rw [show fuel + (k + 1) = (fuel + 1) + k by omega, h2, run]
      cases step env' ⟨st.c, st.act, st.m, stack⟩ <;> rfl
    cases hst : step env' ⟨st.c, st.act, st.m, stack⟩ with
    | inl st1 =>
      rw [hst] at hs
      obtain ⟨s, n, e1, e2⟩ := hs
      simp only [Proc.round, e1]
      refine ⟨⟨rfl, st1.stack, k + 1, e2, fun fuel => ?_⟩, e2.len⟩
      rw [hr, hst]
    | inr r =>
      obtain ⟨e, m1⟩ := r
      rw [hst] at hs
      obtain ⟨s, n, e1, e2, -⟩ := hs
      simp only [Proc.round, e1]
      refine ⟨⟨k + 1, ?_⟩, e2⟩
      have := hr 0
      rw [Nat.zero_add] at this
      rw [this, hst]

theorem OwnS.round {env : Env} {st0 : State} {p : Proc} (sh : Static) (h : OwnS env st0 p) :
    OwnS env st0 (p.round sh).2 ∧ (p.round sh).1 = sh := by
  cases p with
  | broken => exact absurd h id
  | off e m => exact ⟨h, rfl⟩
  | on env' st =>
    obtain ⟨c, act, m, count⟩ := st
    obtain ⟨rfl, h1, h2, h3, k, h4⟩ := h
    dsimp only at h1 h2 h3 h4
    subst h1; subst h2
    have hr : ∀ fuel, run env' (fuel + (k + 1)) st0 = match step env' ⟨c, Option.none, m, []⟩ with
        | .inr r => some r
        | .inl st1 => run env' fuel st1 := by
      intro fuel
      rw [show fuel + (k + 1) = (fuel + 1) + k by omega, h4, run]
      cases step env' ⟨c, Option.none, m, []⟩ <;> rfl
    have hr0 := hr 0
    rw [Nat.zero_add] at hr0
    have hin := exec_in (env := env') (m := m) straight_inherited h3
    have hno := fun c' t f => straight_no_call (env := env') (m := m) (c' := c') (t := t) (f := f) h3
    unfold step at hr hr0
    simp only [Proc.round, stepS]
    dsimp only at hr hr0
    cases he : (exec env' c m).1 with
    | fail => simp only [he, pop] at hr0; exact ⟨⟨k + 1, hr0⟩, rfl⟩
    | succ => simp only [he, pop] at hr0; exact ⟨⟨k + 1, hr0⟩, rfl⟩
    | oob => simp only [he] at hr0; exact ⟨⟨k + 1, hr0⟩, rfl⟩
    | call c1 t f => exact absurd he (hno c1 t f)
    | goto c1 =>
      simp only [he] at hr
      rw [he] at hin
      exact ⟨⟨rfl, rfl, rfl, hin, k + 1, hr⟩, rfl⟩

theorem Own.keep {env : Env} {st0 : State} {sh : Static} {p : Proc} (h : Own env st0 sh p) {sh' : Static} (he : sh' = sh) : Own env st0 sh' p := by
  subst he; exact h

theorem play2_own {e1 e2 : Env} {st1 st2 : State} : ∀ (l : List Turn) (sh : Static) (p q : Proc), (∀ t ∈ l, t ≠ .clear) → sh.cells.length = sh.size →
    Own e1 st1 sh p → OwnS e2 st2 q → (∃ sh', Own e1 st1 sh' (play2 l sh p q).1) ∧ OwnS e2 st2 (play2 l sh p q).2 := by
  intro l
  induction l with
  | nil => intro sh p q _ _ hp hq; exact ⟨⟨sh, hp⟩, hq⟩
  | cons t l ih =>
    intro sh p q hc hl hp hq
    have hc' : ∀ t ∈ l, t ≠ .clear := fun t h => hc t (List.mem_cons_of_mem _ h)
    cases t with
    | first => exact ih _ _ _ hc' (hp.round hl).2 (hp.round hl).1 hq
    | second =>
      obtain ⟨h1, h2⟩ := hq.round sh
      exact ih _ _ _ hc' (by rw [h2]; exact hl) (hp.keep h2) h1
    | clear => exact absurd rfl (hc _ (List.mem_cons_self ..))

/-- C77, any schedule: two threads match two expressions at once, interleaved in any way (whole rounds), on the one array in whatever state
earlier calls left it. If one of the expressions has no alternatives, repetitions or look-arounds, then neither thread goes wrong, and each that
returns returns what its call returns alone (value and groups). -/
theorem C77_any_schedule_if_one_saves_nothing_partial (chars : Chars) (x y : Expr) (hy : straight y.body = true) (o o' : Obj) (a b : Args)
    (mt mt' : Matches) (sh : Static) (hs : sh.cells.length = sh.size) (turns : List Turn) (hc : ∀ t ∈ turns, t ≠ .clear) :
    let r := play2 turns sh (begin_ chars x o a mt) (begin_ chars y o' b mt')
    (r.1 ≠ .broken ∧ ∀ e m, r.1 = .off e m → ∃ fuel,
      run (envOf chars x a) fuel ⟨⟨x.root, true, a.pos⟩, Option.none, ⟨o.vars, clearMatches x mt, o.startChange, o.endChange⟩, []⟩ = some (e, m)) ∧
    (r.2 ≠ .broken ∧ ∀ e m, r.2 = .off e m → ∃ fuel,
      run (envOf chars y b) fuel ⟨⟨y.root, true, b.pos⟩, Option.none, ⟨o'.vars, clearMatches y mt', o'.startChange, o'.endChange⟩, []⟩ = some (e, m)) := by
  intro r
  have h := play2_own (e1 := envOf chars x a) (e2 := envOf chars y b)
    (st1 := ⟨⟨x.root, true, a.pos⟩, Option.none, ⟨o.vars, clearMatches x mt, o.startChange, o.endChange⟩, []⟩)
    (st2 := ⟨⟨y.root, true, b.pos⟩, Option.none, ⟨o'.vars, clearMatches y mt', o'.startChange, o'.endChange⟩, []⟩)
    turns sh (begin_ chars x o a mt) (begin_ chars y o' b mt') hc hs
    ⟨rfl, [], 0, Holds.empty hs, fun _ => rfl⟩ ⟨rfl, rfl, rfl, by
      intro l hl
      have : l = [.brackets (some 0) y.body] := by simpa [Expr.root] using hl
      subst this
      simp [straight, straightN, hy], 0, fun _ => rfl⟩
  obtain ⟨⟨sh', h1⟩, h2⟩ := h
  refine ⟨⟨fun hb => ?_, fun e m he => ?_⟩, fun hb => ?_, fun e m he => ?_⟩
  · rw [show (play2 _ _ _ _).1 = _ from hb] at h1; exact h1
  · rw [show (play2 _ _ _ _).1 = _ from he] at h1; exact h1
  · rw [show (play2 _ _ _ _).2 = _ from hb] at h2; exact h2
  · rw [show (play2 _ _ _ _).2 = _ from he] at h2; exact h2

namespace Demo
open Verif.RegExp.Demo

/-- what a thread has come to -/
def Proc.shown : Proc → Option (Option Bool)
  | .on _ _ => Option.none
  | .off (.ret b) _ => some (some b)
  | .off .oob _ => some Option.none
  | .broken => some Option.none

/-- `/c|b/` on "b" -/
def left : Proc := begin_ ascii (re 1 [.or [c 'c'], c 'b']) Obj.new (at_ "b" 0) noMatches
/-- `/d|e/` on "b" -/
def right : Proc := begin_ ascii (re 1 [.or [c 'd'], c 'e']) Obj.new (at_ "b" 0) noMatches

def turns (s : String) : List Turn := s.toList.map fun ch => if ch = '1' then .first else if ch = '2' then .second else .clear

def outcome (s : String) : List (Option (Option Bool)) :=
  let r := play2 (turns s) Static.none left right
  [Proc.shown r.1, Proc.shown r.2]

/-- one after the other: `/c|b/` matches "b", `/d|e/` does not -/
example : outcome "1111111111222222222222" = [some (some true), some (some false)] := by decide +kernel

/-- C77 fails for two threads: `/c|b/` does not match "b" when a thread matching `/d|e/` is let in between its second and third round (it saves
its own choice point in the same cell) -/
theorem C77_two_threads_lose_a_match :
    outcome "1111111111222222222222" = [some (some true), some (some false)] ∧
    outcome "1122111111111122222222" = [some (some false), some (some false)] := by decide +kernel

/-- and `/d|e/` matches "b": it takes the other expression's alternative -/
theorem C77_two_threads_find_a_match_that_is_none : outcome "2211222222222211111111" = [some (some true), some (some true)] := by decide +kernel

/-- destroying a ParserFactory (ParserFactoryImpl.cpp:15) while another thread matches leaves that thread without its stack -/
theorem C77_clearing_under_a_running_match : outcome "11x1" = [some Option.none, Option.none] := by decide +kernel

/-- the hypotheses of `C77_any_schedule_if_one_saves_nothing_partial`: `/(d)e/` is such an expression; two rounds each, alternating -/
example : straight (re 2 [.brackets (some 1) [c 'd'], c 'e']).body = true ∧
    (let r := play2 (turns "12121212121212121212") Static.none left (begin_ ascii (re 2 [.brackets (some 1) [c 'd'], c 'e']) Obj.new (at_ "de" 0) noMatches)
     [Proc.shown r.1, Proc.shown r.2]) = [some (some true), some (some true)] := by decide +kernel

/-- two expressions, each used twice, with the stack cleared in between -/
def world : Nat → Thing := fun i => if i = 0 then ⟨re 1 [.rangeN 0 [c 'a'], c 'b'], Obj.new, 0⟩ else ⟨re 1 [.or [c 'c'], c 'b'], Obj.new, 0⟩

def history : List Ev := [.call 0 400 (at_ "aaab" 0) noMatches, .call 1 400 (at_ "b" 0) noMatches, .clear, .call 0 400 (at_ "aac" 0) noMatches]

/-- the hypotheses of `C77_one_call_at_a_time_partial` -/
example : (∀ i, (world i).count = 0) ∧ (∀ i, 0 < (world i).x.cMatch) ∧ (∀ e ∈ history, EvOk e) ∧ (∀ i, tidy (world i).x = true) ∧
    (match after ascii history Static.none world with
      | .ok (sh, w) => sh.size == 512 && (match parseS ascii (w 1).x 400 sh (w 1).count (w 1).o (at_ "b" 0) noMatches with
          | .ok (_, _, out) => out.res == .ret true
          | _ => false)
      | _ => false) = true := by
  refine ⟨fun i => ?_, fun i => ?_, ?_, fun i => ?_, by decide +kernel⟩
  · unfold world; split <;> rfl
  · unfold world; split <;> decide
  · intro e he
    simp only [history, List.mem_cons, List.not_mem_nil, or_false] at he
    rcases he with rfl | rfl | rfl | rfl
    · exact ⟨by decide, by decide, by decide, trivial⟩
    · exact ⟨by decide, by decide, by decide, trivial⟩
    · trivial
    · exact ⟨by decide, by decide, by decide, trivial⟩
  · unfold world; split <;> decide

end Demo
end Verif.RegExp.Shared
