import Verif.TextParser.History
import Verif.TextParser.Demo
/-!
# A parse that fails (C78)

`colorize` throws when the line source has no line (TextParserImpl.cpp:522-525). Nothing catches the exception inside the parser, so the members
keep what they have at that moment: `baseScheme` is the scheme of the innermost open block (searchBL restores it only on its way out, 428;
parse sets it once per level, 93), the entries of open blocks stay in the cache with `eline` 0x7FFFFFFF and without `vcache` (372, 442-443), and the
next call of parse takes `baseScheme` as the scheme of the root (59). `runX` is `run` (Verif.TextParser.Model) with an exception that carries this
state; `parseX` is `parse` with what a failed call leaves behind.

Not modelled: what a failed *updating* parse leaves behind that was resumed inside a block (the cache then still holds entries the resumed parse
would have cut off later); the leaked `vtlist` and `backLine`; the back trace of the end expressions, which points to a dead frame but is always
set anew before use.
-/
namespace Verif.TextParser
open Verif.VTList (VEntries resolve)

/-- the members at the throw: `baseScheme`, `matchend`, the rest; `st.line` is the missing line -/
structure Fault where
  scheme : Nat
  me : Match
  st : St

inductive StopX where
  | fuel | null (f : Fault)

abbrev X (α : Type) := Except StopX α

def X.andThen {α β : Type} (x : X α) (f : α → X β) : X β :=
  match x with
  | .error e => .error e
  | .ok a => f a

/-- colorize 520-528 -/
def openLineX (env : Env) (c : Ctx) (me : Match) (st : St) : X St :=
  if st.cleared ≠ st.line then
    match env.line st.line with
    | none => .error (.null ⟨c.scheme, me, st⟩)
    | some _ => .ok { st with cleared := st.line, evs := st.evs ++ [.clear st.line] }
  else .ok st

/-- colorize 535-540 -/
def startLineX (env : Env) (c : Ctx) (me : Match) (st : St) : X St :=
  (openLineX env c me st).andThen fun st1 => .ok { fill c st1 with endLine := st1.line }

/-- one level of the recursion: as `body`, line by line -/
def bodyX (env : Env) (rec : Call → St → X (Out × St)) : Call → St → X (Out × St)
  -- colorize 506-514, 597-598
  | .colorize c me, st =>
    if st.level > env.limit then .ok ({ me := me }, { st with hit := true })
    else (rec (.outer c me) { st with level := st.level + 1 }).andThen fun (o, st1) => .ok (o, { st1 with level := st1.level - 1 })
  -- colorize 516-596
  | .outer c me, st =>
    if st.line < env.endL then
      (startLineX env c me st).andThen fun st1 =>
        let a := endSearch env c me st1
        let len : Int := (st1.str env).length
        (rec (.cols c a.2 (if c.low then a.2.s else len) len) st1.tock).andThen fun (o, st2) =>
          if o.rep then rec (.outer c a.2) st2
          else if a.1 then .ok ({ me := a.2 }, { st2 with schemeStart := -1 })
          else rec (.outer c a.2) { st2 with schemeStart := -1, line := st2.line + 1, gx := 0 }
    else .ok ({ me := me }, st)
  -- colorize 560-586
  | .cols c me len plen, st =>
    if st.gx ≤ me.s then
      if env.brk st.tick then .ok ({}, { st with line := env.endL })
      else
        (rec (.nodes (env.nodes c.scheme) c.levels me.s (hiLen env me.s len) me) st.tock).andThen fun (o, st1) =>
          if (o.res = .scheme ∧ (st1.line ≠ st.line ∨ me.s < st1.gx)) ∨ (o.res = .re ∧ me.s < st1.gx) then .ok ({ rep := true }, st1)
          else rec (.cols c me (if st1.line = st.line then plen else len) plen)
            (if o.res = .nothing then { st1 with gx := st1.gx + 1 } else st1)
    else .ok ({}, st)
  -- searchMatch 466-503
  | .nodes [] _ _ _ _, st => .ok ({}, st)
  -- searchIN
  | .nodes (.inherit none _ :: ns) levels low hi me, st => rec (.nodes ns levels low hi me) st
  | .nodes (.inherit (some s) virt :: ns) levels low hi me, st =>
    (rec (.nodes (env.nodes (target s levels virt).1) (target s levels virt).2 low hi me) st).andThen fun (o, st1) =>
      if o.res ≠ .nothing then .ok ({ res := o.res }, st1) else rec (.nodes ns levels low hi me) st1
  -- searchKW 197-271
  | .nodes (.keywords id :: ns) levels low hi me, st =>
    match env.kw st.tick id (st.str env) st.gx low with
    | some (n, r) =>
      .ok ({ res := .re }, { st.tock with gx := st.gx + n, evs := st.evs ++ regEv st.line (st.gx, st.gx + n) r })
    | none => rec (.nodes ns levels low hi me) st.tock
  -- searchRE
  | .nodes (.re start lowP regs :: ns) levels low hi me, st =>
    let a := env.rx st.tick ⟨start, st.str env, st.gx, if lowP then low else hi, st.schemeStart, none⟩
    if a.1 then
      let st1 := st.tock.emit (regEvs st.line a.2 regs)
      if a.2.e = a.2.s then rec (.nodes ns levels low hi me) st1 else .ok ({ res := .re }, { st1 with gx := a.2.e })
    else rec (.nodes ns levels low hi me) st.tock
  -- searchBL
  | .nodes (.block b :: ns) levels low hi me, st =>
    match b.scheme with
    | none => rec (.nodes ns levels low hi me) st
    | some s =>
      let a := env.rx st.tick ⟨b.start, st.str env, st.gx, if b.low then low else hi, st.schemeStart, none⟩
      if a.1 then
        let t := target s levels []
        (rec (.colorize ⟨some (b.stop, st.str env, a.2), b.lowContent, t.1, t.2⟩ me) (beforeBlock env b t.1 t.2 a.2 st.tock)).andThen
          fun (o, st1) =>
            if a.2.s = o.me.e ∧ st.line = st1.line then rec (.nodes ns levels low hi me) (afterBlock env b t.1 st st1 o.me)
            else .ok ({ res := .scheme }, afterBlock env b t.1 st st1 o.me)
      else rec (.nodes ns levels low hi me) st.tock

/-- the recursion, `fuel` levels deep -/
def runX (env : Env) : Nat → Call → St → X (Out × St)
  | 0 => fun _ _ => .error .fuel
  | fuel + 1 => bodyX env (runX env fuel)

/-- the loop of `parse` (80-114) -/
def climbX (env : Env) (fuel : Nat) (base : Nat) : List Frame → Match → St → X (Match × St)
  | [], me, st => (runX env fuel (.colorize ⟨none, false, base, []⟩ me) { st with level := 0 }).andThen fun (o, st1) =>
      .ok (o.me, { st1 with gx := o.me.e })
  | f :: fs, me, st => (runX env fuel (.colorize (ctxOf f.info) me) { st with level := 0 }).andThen fun (o, st1) =>
      climbX env fuel base fs o.me (afterFrame env f.info st1 o.me)

/-- the children of the root when the open entries, innermost first, are left as they are: `eline` 0x7FFFFFFF, no `vcache`; `inner` is the entry
of the open block within, if any -/
def leaveOpen : List Frame → List Tree → List Tree → List Tree
  | [], inner, root => root ++ inner
  | f :: fs, inner, root => leaveOpen fs [.node { f.info with levels := [] } 0x7FFFFFFF (f.kids ++ inner)] root

/-- a failed parse: the missing line, the events sent, the parser left behind -/
structure Failed where
  line : Int
  evs  : List Ev
  left : PState

inductive Outcome where
  | ok (r : Result) | failed (f : Failed) | fuel | line | notModelled

def outcome (p : PState) (mode : Mode) (z : Zip) : X (Match × St) → Outcome
  | .ok (me, st) =>
    .ok { after := { p with cache := if mode = .update then st.zip.root else p.cache, endLine := st.endLine, me := me }
          evs := st.evs ++ [.fin st.endLine], ret := st.endLine, hit := st.hit }
  | .error .fuel => .fuel
  | .error (.null f) =>
    if mode = .update ∧ z.frames ≠ [] then .notModelled
    else .failed ⟨f.st.line, f.st.evs,
      { cache := if mode = .update then leaveOpen f.st.zip.frames [] f.st.zip.root else p.cache, base := f.scheme, endLine := f.st.endLine, me := f.me }⟩

/-- `parse(from, num, mode)` (33-117), also when it throws -/
def parseX (env0 : Env) (fuel : Nat) (p : PState) (from' num : Int) (mode : Mode) : Outcome :=
  match entry p from' mode with
  | none => .line
  | some z =>
    outcome p mode z (climbX { env0 with endL := from' + num, upd := decide (mode = .update) } fuel p.base z.frames p.me (startState p from' z))

/-! ## `runX` is `run` -/

def toR {α : Type} : X α → R α
  | .ok a => .ok a
  | .error .fuel => .error .fuel
  | .error (.null f) => .error (.null f.st.line)

theorem toR_andThen {α β : Type} (x : X α) (f : α → X β) : toR (x.andThen f) = (toR x).andThen fun a => toR (f a) := by
  cases x with
  | ok a => rfl
  | error e => cases e <;> rfl

theorem startLineX_startLine (env : Env) (c : Ctx) (me : Match) (st : St) : toR (startLineX env c me st) = startLine env c st := by
  unfold startLineX startLine
  rw [toR_andThen]
  congr 1
  unfold openLineX openLine
  split
  · cases env.line st.line <;> rfl
  · rfl

theorem toR_ite {α : Type} {p : Prop} [Decidable p] (a b : X α) : toR (if p then a else b) = if p then toR a else toR b := by split <;> rfl

theorem runX_run (env : Env) (n : Nat) : ∀ c st, toR (runX env n c st) = run env n c st := by
  induction n with
  | zero => intro c st; rfl
  | succ n ih =>
    intro c st
    rw [runX, run]
    have hr : (fun c st => toR (runX env n c st)) = run env n := by funext c st; exact ih c st
    rw [← hr]
    cases c with
    | colorize c me => simp only [bodyX, body, toR_ite, toR_andThen]; rfl
    | outer c me => simp only [bodyX, body, toR_ite, toR_andThen, startLineX_startLine]; rfl
    | cols c me len plen => simp only [bodyX, body, toR_ite, toR_andThen]; rfl
    | nodes ns levels low hi me =>
      cases ns with
      | nil => rfl
      | cons nd ns =>
        cases nd with
        | inherit sch virt =>
          cases sch with
          | none => rfl
          | some s => simp only [bodyX, body, toR_ite, toR_andThen]; rfl
        | keywords id =>
          simp only [bodyX, body]
          cases env.kw st.tick id (st.str env) st.gx low with
          | none => rfl
          | some r => rfl
        | re start lowP regs => simp only [bodyX, body, toR_ite]; rfl
        | block b =>
          simp only [bodyX, body]
          cases b.scheme with
          | none => rfl
          | some s => simp only [toR_ite, toR_andThen]; rfl

theorem runX_ok {env : Env} {n : Nat} {c : Call} {st : St} {o : Out} {st' : St} (h : runX env n c st = .ok (o, st')) : Big env c st o st' := by
  refine run_big env n c st o st' ?_
  rw [← runX_run, h]; rfl

theorem andThenX_err {α β : Type} {x : X α} {f : α → X β} {e : StopX} (h : x.andThen f = .error e) :
    x = .error e ∨ ∃ a, x = .ok a ∧ f a = .error e := by
  cases x with
  | ok a => exact .inr ⟨a, rfl, h⟩
  | error e' => cases h; exact .inl rfl

theorem startLineX_ok {env : Env} {c : Ctx} {me : Match} {st st1 : St} (h : startLineX env c me st = .ok st1) : startLine env c st = .ok st1 := by
  rw [← startLineX_startLine env c me, h]; rfl

theorem startLineX_err {env : Env} {c : Ctx} {me : Match} {st : St} {f : Fault} (h : startLineX env c me st = .error (.null f)) :
    f = ⟨c.scheme, me, st⟩ ∧ env.line st.line = none ∧ st.cleared ≠ st.line := by
  unfold startLineX at h
  rcases andThenX_err h with h | ⟨st1, _, h⟩
  · unfold openLineX at h
    split at h
    · rename_i hc
      cases hl : env.line st.line with
      | none => rw [hl] at h; cases h; exact ⟨rfl, rfl, hc⟩
      | some t => rw [hl] at h; cases h
    · cases h
  · cases h

/-! ## Lines -/

theorem bump_line (o : Out) (st : St) : (bump o st).line = st.line := by unfold bump; split <;> rfl

/-- the line never goes back -/
theorem big_mono {env : Env} (hq : Quiet env) {c : Call} {st : St} {o : Out} {st' : St} (h : Big env c st o st') : st.line ≤ st'.line := by
  induction h with
  | limit | outEnd | colEnd | nil | kwHit | reHit => exact Int.le_refl _
  | colorize _ _ ih => exact ih
  | outRep _ h1 _ _ _ ih1 ih2 =>
    have := (startLine_facts h1).2.1
    simp only [St.tock] at ih1; omega
  | @outStop _ _ _ _ _ st2 _ h1 _ _ _ ih1 =>
    have := (startLine_facts h1).2.1
    simp only [St.tock] at ih1; show _ ≤ st2.line; omega
  | outNext _ h1 _ _ _ _ ih1 ih2 =>
    have := (startLine_facts h1).2.1
    simp only [St.tock, nextLine] at ih1 ih2; omega
  | colBrk _ hb => rw [hq.brk] at hb; cases hb
  | colRep _ _ _ _ ih => exact ih
  | colGo _ _ _ _ _ ih1 ih2 => rw [bump_line] at ih2; simp only [St.tock] at ih1; omega
  | inhNone _ ih => exact ih
  | inhHit _ _ ih => exact ih
  | inhMiss _ _ _ ih1 ih2 => omega
  | kwMiss _ _ ih => exact ih
  | reZero _ _ _ ih => exact ih
  | reMiss _ _ ih => exact ih
  | blNone _ _ ih => exact ih
  | blMiss _ _ _ ih => exact ih
  | blZero _ _ _ _ _ _ ih1 ih2 => simp only [beforeBlock, St.tock, afterBlock] at ih1 ih2; omega
  | blHit _ _ _ _ ih1 => simp only [beforeBlock, St.tock] at ih1; exact ih1

/-! ## Blocks entered and left -/

def isEnter : Ev → Bool
  | .enter _ _ _ _ _ => true
  | _ => false

def isLeave : Ev → Bool
  | .leave _ _ _ _ _ => true
  | _ => false

/-- blocks entered and not left -/
def bal (evs : List Ev) : Int := (evs.countP isEnter : Int) - evs.countP isLeave

theorem bal_append (a b : List Ev) : bal (a ++ b) = bal a + bal b := by
  unfold bal; rw [List.countP_append, List.countP_append]; omega

theorem bal_zero {a : List Ev} (h : ∀ e ∈ a, isEnter e = false ∧ isLeave e = false) : bal a = 0 := by
  unfold bal
  rw [List.countP_eq_zero.mpr (fun e he => by simp [(h e he).1]), List.countP_eq_zero.mpr (fun e he => by simp [(h e he).2])]
  rfl

theorem bal_regEv (l : Int) (g : Int × Int) (r : Option Nat) : bal (regEv l g r) = 0 := by
  unfold regEv
  split
  · rfl
  · split <;> rfl

theorem bal_flatten : ∀ ls : List (List Ev), (∀ l ∈ ls, bal l = 0) → bal ls.flatten = 0 := by
  intro ls
  induction ls with
  | nil => intro _; rfl
  | cons a ls ih =>
    intro h
    rw [List.flatten_cons, bal_append, h a (List.mem_cons_self ..), ih (fun l hl => h l (List.mem_cons_of_mem _ hl))]; rfl

theorem bal_regEvs (l : Int) (m : Match) (regs : List (Option Nat)) : bal (regEvs l m regs) = 0 := by
  unfold regEvs
  refine bal_flatten _ fun a ha => ?_
  obtain ⟨x, _, rfl⟩ := List.mem_map.mp ha
  exact bal_regEv ..

theorem bal_enterEvs (l : Int) (m : Match) (b : Block) (s : Nat) : bal (enterEvs l m b s) = 1 := by
  unfold enterEvs
  split
  · rw [bal_append, bal_regEvs]; rfl
  · rw [show ∀ (e : Ev) (es : List Ev), e :: es = [e] ++ es from fun _ _ => rfl, bal_append, bal_regEvs]; rfl

theorem bal_leaveEvs (l : Int) (m : Match) (b : Block) (s : Nat) : bal (leaveEvs l m b s) = -1 := by
  unfold leaveEvs
  split
  · rw [show ∀ (e : Ev) (es : List Ev), e :: es = [e] ++ es from fun _ _ => rfl, bal_append, bal_regEvs]; rfl
  · rw [bal_append, bal_regEvs]; rfl

theorem bal_startLine {env : Env} {c : Ctx} {st st1 : St} (h : startLine env c st = .ok st1) : bal st1.evs = bal st.evs := by
  obtain ⟨st2, h2, h3⟩ := andThen_ok h
  cases h3
  have k : bal st2.evs = bal st.evs := by
    unfold openLine at h2
    split at h2
    · split at h2
      · simp at h2
      · cases h2; show bal (st.evs ++ [_]) = _; rw [bal_append]; exact Int.add_zero _
    · cases h2; rfl
  show bal (fill c st2).evs = _
  unfold fill
  split
  · exact k
  · show bal (st2.evs ++ _) = _
    rw [bal_append, k, bal_zero (a := pseudos _ _ _), Int.add_zero]
    intro e he
    obtain ⟨f, _, rfl⟩ := List.mem_map.mp he
    exact ⟨rfl, rfl⟩

theorem bump_evs (o : Out) (st : St) : (bump o st).evs = st.evs := by unfold bump; split <;> rfl
theorem bump_cleared (o : Out) (st : St) : (bump o st).cleared = st.cleared := by unfold bump; split <;> rfl

/-! ## The part before the missing line -/

/-- where a call of a failing parse can begin -/
def Call.Pre (L : Int) (st : St) : Call → Prop
  | .outer _ _ => st.line ≤ L
  | .colorize _ _ | .cols _ _ _ _ | .nodes _ _ _ _ _ => st.line < L

/-- a call that ends does not get to a missing line, and does the same when the range ends there -/
theorem to_ok {env : Env} (hq : Quiet env) {L : Int} (hL : env.line L = none) (hE : L < env.endL) {c : Call} {st : St} {o : Out} {st' : St}
    (h : Big env c st o st') : c.Pre L st → st.cleared ≠ L → st'.line < L ∧ st'.cleared ≠ L ∧ Big (env.to L) c st o st' ∧ bal st'.evs = bal st.evs := by
  have hne : ∀ {c : Ctx} {st st1 : St}, startLine env c st = .ok st1 → st.cleared ≠ L → st.line ≠ L := by
    intro c st st1 h hc he
    obtain ⟨st2, h2, -⟩ := andThen_ok h
    unfold openLine at h2
    rw [he, if_pos hc, hL] at h2
    cases h2
  induction h with
  | limit hl => intro hp hc; exact ⟨hp, hc, .limit hl, rfl⟩
  | colorize hl _ ih =>
    intro hp hc
    obtain ⟨a1, a2, a3, a4⟩ := ih (Int.le_of_lt hp) hc
    exact ⟨a1, a2, .colorize hl a3, a4⟩
  | outEnd hl => intro hp hc; have : _ ≤ L := hp; omega
  | outRep hl h1 _ hr _ ih1 ih2 =>
    intro hp hc
    have hp : _ ≤ L := hp
    have hn := hne h1 hc
    have hb := bal_startLine h1
    have hs := startLine_facts h1
    obtain ⟨a1, a2, a3, a4⟩ := ih1 (by show _ < L; simp only [St.tock]; omega) (by simp only [St.tock]; omega)
    obtain ⟨b1, b2, b3, b4⟩ := ih2 (Int.le_of_lt a1) a2
    exact ⟨b1, b2, .outRep (by show _ < L; omega) h1 a3 hr b3, b4.trans (a4.trans hb)⟩
  | outStop hl h1 _ hr ha ih1 =>
    intro hp hc
    have hp : _ ≤ L := hp
    have hn := hne h1 hc
    have hb := bal_startLine h1
    have hs := startLine_facts h1
    obtain ⟨a1, a2, a3, a4⟩ := ih1 (by show _ < L; simp only [St.tock]; omega) (by simp only [St.tock]; omega)
    exact ⟨a1, a2, .outStop (by show _ < L; omega) h1 a3 hr ha, a4.trans hb⟩
  | outNext hl h1 _ hr ha _ ih1 ih2 =>
    intro hp hc
    have hp : _ ≤ L := hp
    have hn := hne h1 hc
    have hb := bal_startLine h1
    have hs := startLine_facts h1
    obtain ⟨a1, a2, a3, a4⟩ := ih1 (by show _ < L; simp only [St.tock]; omega) (by simp only [St.tock]; omega)
    obtain ⟨b1, b2, b3, b4⟩ := ih2 (by show _ ≤ L; simp only [nextLine]; omega) a2
    exact ⟨b1, b2, .outNext (by show _ < L; omega) h1 a3 hr ha b3, b4.trans (a4.trans hb)⟩
  | colEnd hg => intro hp hc; exact ⟨hp, hc, .colEnd hg, rfl⟩
  | colBrk _ hb => rw [hq.brk] at hb; cases hb
  | colRep hg hb _ hr ih =>
    intro hp hc
    obtain ⟨a1, a2, a3, a4⟩ := ih hp hc
    exact ⟨a1, a2, .colRep hg hb a3 hr, a4⟩
  | colGo hg hb _ hr _ ih1 ih2 =>
    intro hp hc
    obtain ⟨a1, a2, a3, a4⟩ := ih1 hp hc
    obtain ⟨b1, b2, b3, b4⟩ := ih2 (by show _ < L; rw [bump_line]; exact a1) (by rw [bump_cleared]; exact a2)
    exact ⟨b1, b2, .colGo hg hb a3 hr b3, b4.trans (by rw [bump_evs]; exact a4)⟩
  | nil => intro hp hc; exact ⟨hp, hc, .nil, rfl⟩
  | inhNone _ ih => intro hp hc; obtain ⟨a1, a2, a3, a4⟩ := ih hp hc; exact ⟨a1, a2, .inhNone a3, a4⟩
  | inhHit _ hr ih => intro hp hc; obtain ⟨a1, a2, a3, a4⟩ := ih hp hc; exact ⟨a1, a2, .inhHit a3 hr, a4⟩
  | inhMiss _ hr _ ih1 ih2 =>
    intro hp hc
    obtain ⟨a1, a2, a3, a4⟩ := ih1 hp hc
    obtain ⟨b1, b2, b3, b4⟩ := ih2 a1 a2
    exact ⟨b1, b2, .inhMiss a3 hr b3, b4.trans a4⟩
  | kwHit hk => intro hp hc; exact ⟨hp, hc, .kwHit hk, by show bal (_ ++ _) = _; rw [bal_append, bal_regEv, Int.add_zero]⟩
  | kwMiss hk _ ih => intro hp hc; obtain ⟨a1, a2, a3, a4⟩ := ih hp hc; exact ⟨a1, a2, .kwMiss hk a3, a4⟩
  | reHit ha he => intro hp hc; exact ⟨hp, hc, .reHit ha he, by show bal (_ ++ _) = _; rw [bal_append, bal_regEvs, Int.add_zero]; rfl⟩
  | reZero ha he _ ih =>
    intro hp hc
    obtain ⟨a1, a2, a3, a4⟩ := ih hp hc
    exact ⟨a1, a2, .reZero ha he a3, a4.trans (by show bal (_ ++ _) = _; rw [bal_append, bal_regEvs, Int.add_zero]; rfl)⟩
  | reMiss ha _ ih => intro hp hc; obtain ⟨a1, a2, a3, a4⟩ := ih hp hc; exact ⟨a1, a2, .reMiss ha a3, a4⟩
  | blNone hs _ ih => intro hp hc; obtain ⟨a1, a2, a3, a4⟩ := ih hp hc; exact ⟨a1, a2, .blNone hs a3, a4⟩
  | blMiss hs ha _ ih => intro hp hc; obtain ⟨a1, a2, a3, a4⟩ := ih hp hc; exact ⟨a1, a2, .blMiss hs ha a3, a4⟩
  | @blZero b s _ levels _ _ _ st m o st1 _ _ hs ha _ hz1 hz2 _ ih1 ih2 =>
    intro hp hc
    obtain ⟨a1, a2, a3, a4⟩ := ih1 hp hc
    obtain ⟨b1, b2, b3, b4⟩ := ih2 a1 a2
    have e := afterBlock_to (Int.le_of_lt hE) b (target s levels []).1 st o.me a1
    refine ⟨b1, b2, .blZero hs ha a3 hz1 hz2 (by rw [e]; exact b3), b4.trans ?_⟩
    simp only [afterBlock, if_pos (show st1.line < env.endL by omega)]
    rw [bal_append, bal_leaveEvs, a4]
    simp only [beforeBlock]
    rw [bal_append, bal_enterEvs]; simp only [St.tock]; omega
  | @blHit b s _ levels _ _ _ st m o st1 hs ha _ hz ih1 =>
    intro hp hc
    obtain ⟨a1, a2, a3, a4⟩ := ih1 hp hc
    have e := afterBlock_to (Int.le_of_lt hE) b (target s levels []).1 st o.me a1
    refine ⟨a1, a2, by rw [← e]; exact .blHit hs ha a3 hz, ?_⟩
    simp only [afterBlock, if_pos (show st1.line < env.endL by omega)]
    rw [bal_append, bal_leaveEvs, a4]
    simp only [beforeBlock]
    rw [bal_append, bal_enterEvs]; simp only [St.tock]; omega

/-- the line an exception names is missing, inside the range, and not before the line the call began on -/
theorem fail_line {env : Env} (hq : Quiet env) (n : Nat) : ∀ c st f, runX env n c st = .error (.null f) →
    env.line f.st.line = none ∧ f.st.line < env.endL ∧ st.line ≤ f.st.line := by
  induction n with
  | zero => intro c st f h; cases h
  | succ n ih =>
    intro c st f h
    rw [runX] at h
    cases c with
    | colorize c me =>
      simp only [bodyX] at h
      split at h
      · cases h
      · rcases andThenX_err h with h | ⟨⟨o, st1⟩, _, h⟩
        · (have := ih _ _ _ h; exact this)
        · cases h
    | outer c me =>
      simp only [bodyX] at h
      split at h
      · rename_i hl
        rcases andThenX_err h with h | ⟨st1, h1, h⟩
        · obtain ⟨rfl, h2, _⟩ := startLineX_err h
          exact ⟨h2, hl, Int.le_refl _⟩
        · have hs := (startLine_facts (startLineX_ok h1)).2.1
          rcases andThenX_err h with h | ⟨⟨o, st2⟩, h2, h⟩
          · have := ih _ _ _ h
            simp only [St.tock] at this; rw [hs] at this; exact this
          · have hm := big_mono hq (runX_ok h2)
            simp only [St.tock] at hm
            dsimp only at h
            split at h
            · obtain ⟨a, b, c⟩ := ih _ _ _ h
              exact ⟨a, b, by omega⟩
            · split at h
              · cases h
              · obtain ⟨a, b, c⟩ := ih _ _ _ h
                dsimp only at c
                exact ⟨a, b, by omega⟩
      · cases h
    | cols c me len plen =>
      simp only [bodyX] at h
      split at h
      · split at h
        · cases h
        · rcases andThenX_err h with h | ⟨⟨o, st1⟩, h1, h⟩
          · (have := ih _ _ _ h; exact this)
          · have hm := big_mono hq (runX_ok h1)
            simp only [St.tock] at hm
            dsimp only at h
            split at h
            · cases h
            · obtain ⟨a, b, c⟩ := ih _ _ _ h
              refine ⟨a, b, ?_⟩
              split at c <;> (try dsimp only at c) <;> omega
      · cases h
    | nodes ns levels low hi me =>
      cases ns with
      | nil => cases h
      | cons nd ns =>
        cases nd with
        | inherit sch virt =>
          cases sch with
          | none => (have := ih _ _ _ h; exact this)
          | some s =>
            simp only [bodyX] at h
            rcases andThenX_err h with h | ⟨⟨o, st1⟩, h1, h⟩
            · (have := ih _ _ _ h; exact this)
            · have hm := big_mono hq (runX_ok h1)
              dsimp only at h
              split at h
              · cases h
              · obtain ⟨a, b, c⟩ := ih _ _ _ h
                exact ⟨a, b, by omega⟩
        | keywords id =>
          simp only [bodyX] at h
          split at h
          · cases h
          · (have := ih _ _ _ h; exact this)
        | re start lowP regs =>
          simp only [bodyX] at h
          generalize ha : env.rx st.tick ⟨start, st.str env, st.gx, if lowP = true then low else hi, st.schemeStart, none⟩ = a at h
          split at h
          · split at h
            · (have := ih _ _ _ h; exact this)
            · cases h
          · (have := ih _ _ _ h; exact this)
        | block b =>
          simp only [bodyX] at h
          split at h
          · (have := ih _ _ _ h; exact this)
          · generalize ha : env.rx st.tick ⟨b.start, st.str env, st.gx, if b.low = true then low else hi, st.schemeStart, none⟩ = a at h
            split at h
            · rcases andThenX_err h with h | ⟨⟨o, st1⟩, h1, h⟩
              · (have := ih _ _ _ h; exact this)
              · have hm := big_mono hq (runX_ok h1)
                simp only [beforeBlock, St.tock] at hm
                dsimp only at h
                split at h
                · obtain ⟨a, b, c⟩ := ih _ _ _ h
                  simp only [afterBlock] at c
                  exact ⟨a, b, by omega⟩
                · cases h
            · (have := ih _ _ _ h; exact this)

/-- closing the innermost `k` open entries at line `L` -/
def shut (L : Int) : Nat → Zip → Zip
  | 0, z => z
  | k + 1, z => (shut L k z).close L

/-- how a call that fails with `f` ends when the range ends before the missing line, `k` blocks deeper than it began: `o` and `stF` -/
structure Short (env : Env) (st : St) (f : Fault) (k : Nat) (stF : St) : Prop where
  line : stF.line = f.st.line
  evs : stF.evs = f.st.evs
  endLine : stF.endLine = f.st.endLine
  hit : stF.hit = f.st.hit
  zip : stF.zip = if env.upd then shut f.st.line k f.st.zip else f.st.zip
  bal : bal f.st.evs = bal st.evs + k

def Call.Post (c : Call) (f : Fault) (k : Nat) (o : Out) : Prop :=
  match c with
  | .outer c _ | .colorize c _ => k = 0 → f.scheme = c.scheme ∧ o.me = f.me
  | .cols _ _ _ _ => 0 < k ∧ o.rep = true
  | .nodes _ _ _ _ _ => 0 < k ∧ o.res = .scheme

theorem failX {env : Env} (hq : Quiet env) (n : Nat) : ∀ c st f, runX env n c st = .error (.null f) →
    (match c with | .colorize _ _ => st.line ≤ f.st.line | c => c.Pre f.st.line st) → st.cleared ≠ f.st.line →
    ∃ k o stF, Big (env.to f.st.line) c st o stF ∧ Short env st f k stF ∧ c.Post f k o := by
  induction n with
  | zero => intro c st f h; cases h
  | succ n ih =>
    intro c st f h hp hc
    obtain ⟨hL, hE, hle⟩ := fail_line hq (n + 1) c st f h
    rw [runX] at h
    cases c with
    | colorize c me =>
      simp only [bodyX] at h
      split at h
      · cases h
      · rename_i hl
        rcases andThenX_err h with h | ⟨⟨o, st1⟩, _, h⟩
        · obtain ⟨k, o, stF, h1, h2, h3⟩ := ih _ _ _ h hp hc
          exact ⟨k, o, _, .colorize hl h1, ⟨h2.line, h2.evs, h2.endLine, h2.hit, h2.zip, h2.bal⟩, h3⟩
        · cases h
    | outer c me =>
      simp only [bodyX] at h
      split at h
      · rename_i hl
        rcases andThenX_err h with h | ⟨st1, h1, h⟩
        · obtain ⟨rfl, h2, _⟩ := startLineX_err h
          refine ⟨0, _, st, .outEnd (by show ¬ _ < st.line; omega), ⟨rfl, rfl, rfl, rfl, ?_, ?_⟩, fun _ => ⟨rfl, rfl⟩⟩
          · split <;> rfl
          · simp
        · have h1 := startLineX_ok h1
          have hs := startLine_facts h1
          have hb := bal_startLine h1
          have hn : st.line ≠ f.st.line := by
            intro he
            obtain ⟨st2, h2, -⟩ := andThen_ok h1
            unfold openLine at h2
            rw [he, if_pos hc, hL] at h2
            cases h2
          rcases andThenX_err h with h | ⟨⟨o, st2⟩, h2, h⟩
          · obtain ⟨k, o, stF, a1, a2, a3, a4⟩ := ih _ _ _ h (by show _ < _; simp only [St.tock]; omega) (by simp only [St.tock]; omega)
            refine ⟨k, _, stF, .outRep (by show _ < f.st.line; omega) h1 a1 a4 (.outEnd ?_), ⟨a2.line, a2.evs, a2.endLine, a2.hit, a2.zip, ?_⟩, fun h => ?_⟩
            · show ¬ _ < f.st.line; rw [a2.line]; omega
            · rw [a2.bal, ← hb]; rfl
            · omega
          · have hok := runX_ok h2
            obtain ⟨b1, b2, b3, b4⟩ := to_ok hq hL hE hok (by show _ < _; simp only [St.tock]; omega) (by simp only [St.tock]; omega)
            have b4 : bal st2.evs = bal st.evs := b4.trans (by exact hb)
            dsimp only at h
            split at h
            · rename_i hr
              obtain ⟨k, o, stF, a1, a2, a3⟩ := ih _ _ _ h (Int.le_of_lt b1) b2
              exact ⟨k, o, stF, .outRep (by show _ < f.st.line; omega) h1 b3 hr a1, ⟨a2.line, a2.evs, a2.endLine, a2.hit, a2.zip, by rw [a2.bal, b4]⟩, a3⟩
            · rename_i hr
              split at h
              · cases h
              · rename_i ha
                have ha : (endSearch env c me st1).1 = false := by simpa using ha
                obtain ⟨k, o, stF, a1, a2, a3⟩ := ih _ _ _ h (by show _ ≤ f.st.line; dsimp only; omega) b2
                exact ⟨k, o, stF, .outNext (by show _ < f.st.line; omega) h1 b3 (by simpa using hr) ha a1,
                  ⟨a2.line, a2.evs, a2.endLine, a2.hit, a2.zip, a2.bal.trans (by rw [← b4])⟩, a3⟩
      · cases h
    | cols c me len plen =>
      have hp : st.line < f.st.line := hp
      simp only [bodyX] at h
      split at h
      · rename_i hg
        split at h
        · cases h
        · rename_i hb
          have hb : env.brk st.tick = false := by simpa using hb
          rcases andThenX_err h with h | ⟨⟨o, st1⟩, h1, h⟩
          · obtain ⟨k, o, stF, a1, a2, a3, a4⟩ := ih _ _ _ h hp hc
            refine ⟨k, _, stF, .colRep hg hb a1 (Or.inl ⟨a4, Or.inl ?_⟩), ⟨a2.line, a2.evs, a2.endLine, a2.hit, a2.zip, a2.bal⟩, a3, rfl⟩
            rw [a2.line]; omega
          · obtain ⟨b1, b2, b3, b4⟩ := to_ok hq hL hE (runX_ok h1) hp hc
            dsimp only at h
            split at h
            · cases h
            · rename_i hr
              obtain ⟨k, o', stF, a1, a2, a3⟩ := ih _ _ _ h (by show (bump o st1).line < _; rw [bump_line]; exact b1)
                (by show (bump o st1).cleared ≠ _; rw [bump_cleared]; exact b2)
              refine ⟨k, o', stF, .colGo hg hb b3 hr a1, ⟨a2.line, a2.evs, a2.endLine, a2.hit, a2.zip, a2.bal.trans ?_⟩, a3⟩
              show bal (bump o st1).evs + _ = _
              rw [bump_evs, b4]; rfl
      · cases h
    | nodes ns levels low hi me =>
      have hp : st.line < f.st.line := hp
      cases ns with
      | nil => cases h
      | cons nd ns =>
        cases nd with
        | inherit sch virt =>
          cases sch with
          | none =>
            obtain ⟨k, o, stF, a1, a2, a3⟩ := ih _ _ _ h hp hc
            exact ⟨k, o, stF, .inhNone a1, a2, a3⟩
          | some s =>
            simp only [bodyX] at h
            rcases andThenX_err h with h | ⟨⟨o, st1⟩, h1, h⟩
            · obtain ⟨k, o, stF, a1, a2, a3, a4⟩ := ih _ _ _ h hp hc
              exact ⟨k, _, stF, .inhHit a1 (by rw [a4]; simp), a2, a3, a4⟩
            · obtain ⟨b1, b2, b3, b4⟩ := to_ok hq hL hE (runX_ok h1) hp hc
              dsimp only at h
              split at h
              · cases h
              · rename_i hr
                obtain ⟨k, o', stF, a1, a2, a3⟩ := ih _ _ _ h b1 b2
                exact ⟨k, o', stF, .inhMiss b3 (by simpa using hr) a1, ⟨a2.line, a2.evs, a2.endLine, a2.hit, a2.zip, by rw [a2.bal, b4]⟩, a3⟩
        | keywords id =>
          simp only [bodyX] at h
          split at h
          · cases h
          · rename_i hk
            obtain ⟨k, o, stF, a1, a2, a3⟩ := ih _ _ _ h hp hc
            exact ⟨k, o, stF, .kwMiss hk a1, ⟨a2.line, a2.evs, a2.endLine, a2.hit, a2.zip, a2.bal⟩, a3⟩
        | re start lowP regs =>
          simp only [bodyX] at h
          generalize ha : env.rx st.tick ⟨start, st.str env, st.gx, if lowP = true then low else hi, st.schemeStart, none⟩ = a at h
          obtain ⟨b, m⟩ := a
          cases b with
          | true =>
            simp only [if_true] at h
            split at h
            · rename_i he
              obtain ⟨k, o, stF, a1, a2, a3⟩ := ih _ _ _ h hp hc
              refine ⟨k, o, stF, .reZero ha he a1, ⟨a2.line, a2.evs, a2.endLine, a2.hit, a2.zip, a2.bal.trans ?_⟩, a3⟩
              show bal (_ ++ _) + _ = _
              rw [bal_append, bal_regEvs, Int.add_zero]; rfl
            · cases h
          | false =>
            simp only [Bool.false_eq_true, if_false] at h
            obtain ⟨k, o, stF, a1, a2, a3⟩ := ih _ _ _ h hp hc
            exact ⟨k, o, stF, .reMiss ha a1, ⟨a2.line, a2.evs, a2.endLine, a2.hit, a2.zip, a2.bal⟩, a3⟩
        | block b =>
          simp only [bodyX] at h
          split at h
          · rename_i hs
            obtain ⟨k, o, stF, a1, a2, a3⟩ := ih _ _ _ h hp hc
            exact ⟨k, o, stF, .blNone hs a1, a2, a3⟩
          · rename_i s hs
            generalize ha : env.rx st.tick ⟨b.start, st.str env, st.gx, if b.low = true then low else hi, st.schemeStart, none⟩ = a at h
            obtain ⟨bb, m⟩ := a
            cases bb with
            | true =>
              simp only [if_true] at h
              rcases andThenX_err h with h | ⟨⟨o, st1⟩, h1, h⟩
              · obtain ⟨k, o, stF, a1, a2, a3⟩ := ih _ _ _ h (Int.le_of_lt hp) hc
                refine ⟨k + 1, _, _, .blHit hs ha a1 (fun hz => ?_), ⟨a2.line, ?_, a2.endLine, a2.hit, ?_, ?_⟩, by omega, rfl⟩
                · rw [a2.line] at hz; omega
                · simp only [afterBlock, Env.to, a2.line, Int.lt_irrefl, if_false, List.append_nil]; exact a2.evs
                · simp only [afterBlock, Env.to, a2.line]
                  rw [if_neg (show ¬ st.line = f.st.line by omega), a2.zip]
                  split <;> rfl
                · rw [a2.bal]
                  simp only [beforeBlock]
                  rw [bal_append, bal_enterEvs]; simp only [St.tock]; omega
              · obtain ⟨b1, b2, b3, b4⟩ := to_ok hq hL hE (runX_ok h1) hp hc
                have e := afterBlock_to (Int.le_of_lt hE) b (target s levels []).1 st o.me b1
                dsimp only at h
                split at h
                · rename_i hz
                  obtain ⟨k, o', stF, a1, a2, a3⟩ := ih _ _ _ h b1 b2
                  refine ⟨k, o', stF, .blZero hs ha b3 hz.1 hz.2 (by rw [e]; exact a1), ⟨a2.line, a2.evs, a2.endLine, a2.hit, a2.zip, ?_⟩, a3⟩
                  rw [a2.bal]
                  simp only [afterBlock, if_pos (show st1.line < env.endL by omega)]
                  rw [bal_append, bal_leaveEvs, b4]
                  simp only [beforeBlock]
                  rw [bal_append, bal_enterEvs]; simp only [St.tock]; omega
                · cases h
            | false =>
              simp only [Bool.false_eq_true, if_false] at h
              obtain ⟨k, o, stF, a1, a2, a3⟩ := ih _ _ _ h hp hc
              exact ⟨k, o, stF, .blMiss hs ha a1, ⟨a2.line, a2.evs, a2.endLine, a2.hit, a2.zip, a2.bal⟩, a3⟩

theorem addKid_depth (z : Zip) (t : Tree) : (z.addKid t).frames.length = z.frames.length := by
  unfold Zip.addKid
  split
  · rfl
  · rename_i h; rw [h]; rfl

theorem close_depth (z : Zip) (L : Int) : (z.close L).frames.length = z.frames.length - 1 := by
  unfold Zip.close
  split
  · rename_i h; rw [h]; rfl
  · rename_i h; rw [addKid_depth, h]; rfl

theorem bump_zip (o : Out) (st : St) : (bump o st).zip = st.zip := by unfold bump; split <;> rfl

/-- a call that ends has as many entries open as when it began -/
theorem big_depth {env : Env} {c : Call} {st : St} {o : Out} {st' : St} (h : Big env c st o st') :
    st'.zip.frames.length = st.zip.frames.length := by
  induction h with
  | limit | outEnd | colEnd | nil | kwHit | reHit | colBrk => rfl
  | colorize _ _ ih => exact ih
  | outRep _ h1 _ _ _ ih1 ih2 =>
    rw [ih2, ih1]; rw [← (startLine_facts h1).2.2.2.2.2.1]; rfl
  | outStop _ h1 _ _ _ ih1 =>
    refine Eq.trans ih1 ?_; rw [← (startLine_facts h1).2.2.2.2.2.1]; rfl
  | outNext _ h1 _ _ _ _ ih1 ih2 =>
    rw [ih2]; refine Eq.trans ih1 ?_; rw [← (startLine_facts h1).2.2.2.2.2.1]; rfl
  | colRep _ _ _ _ ih => exact ih
  | colGo _ _ _ _ _ ih1 ih2 => rw [ih2, bump_zip]; exact ih1
  | inhNone _ ih => exact ih
  | inhHit _ _ ih => exact ih
  | inhMiss _ _ _ ih1 ih2 => rw [ih2, ih1]
  | kwMiss _ _ ih => exact ih
  | reZero _ _ _ ih => exact ih
  | reMiss _ _ ih => exact ih
  | blNone _ _ ih => exact ih
  | blMiss _ _ _ ih => exact ih
  | blZero _ _ _ _ hz _ ih1 ih2 =>
    rw [ih2]
    simp only [afterBlock, beforeBlock] at ih1 ⊢
    split
    · rename_i hu
      rw [if_pos hu] at ih1
      simp only [Zip.discard, Zip.push, List.length_tail, List.length_cons] at ih1 ⊢
      rw [ih1]; rfl
    · rename_i hu; rw [if_neg hu] at ih1; exact ih1
  | blHit _ _ _ _ ih1 =>
    simp only [afterBlock, beforeBlock] at ih1 ⊢
    split
    · rename_i hu
      rw [if_pos hu] at ih1
      split
      · simp only [Zip.discard, Zip.push, List.length_tail, List.length_cons] at ih1 ⊢
        rw [ih1]; rfl
      · rw [close_depth, ih1]; rfl
    · rename_i hu; rw [if_neg hu] at ih1; exact ih1

/-! ## C78 -/

/-- C78, partial: nobody stops the parser, and no block is open where the parse begins. A parse that fails because line `L` is missing has told
the handler exactly what the parse of the lines before `L` tells it (but for the end), and when every block entered has been left, it leaves the
parser exactly as that shorter parse does: same cache, same scheme for the root. Everything the parser does later is then as if only the lines
before `L` had been asked for. -/
theorem C78_failure_outside_blocks_partial (env : Env) (hq : ∀ t, env.brk t = false) (fuel : Nat) (p : PState) (from' num : Int) (mode : Mode)
    (h0 : 0 ≤ from') (hz : ∀ z, entry p from' mode = some z → z.frames = []) (x : Failed) (h : parseX env fuel p from' num mode = .failed x) :
    env.line x.line = none ∧ from' ≤ x.line ∧ x.line < from' + num ∧
    ∃ r, Parses env p from' (x.line - from') mode r ∧ r.evs = x.evs ++ [.fin r.ret] ∧
      (x.evs.countP isEnter = x.evs.countP isLeave → x.left = r.after) := by
  unfold parseX at h
  cases he : entry p from' mode with
  | none => rw [he] at h; cases h
  | some z =>
    rw [he] at h
    have hf := hz z he
    obtain ⟨frames, root⟩ := z
    subst hf
    simp only at h
    generalize hC : ({ env with endL := from' + num, upd := decide (mode = .update) } : Env) = envC at h
    have hln : envC.line = env.line := by rw [← hC]
    have hel : envC.endL = from' + num := by rw [← hC]
    have hto : ∀ L, envC.to L = env.call from' (L - from') mode := by
      intro L
      rw [← hC]
      unfold Env.to Env.call
      rw [show from' + (L - from') = L by omega]
    have hqC : Quiet envC := ⟨fun t => by rw [← hC]; exact hq t⟩
    cases hc : climbX envC fuel p.base [] p.me (startState p from' ⟨[], root⟩) with
    | ok r => rw [hc] at h; cases h
    | error e =>
      rw [hc] at h
      cases e with
      | fuel => cases h
      | null f =>
        simp only [outcome, ne_eq, not_true_eq_false, and_false, if_false, Outcome.failed.injEq] at h
        subst h
        rw [climbX] at hc
        rcases andThenX_err hc with hc | ⟨⟨o, st1⟩, _, hc⟩
        · obtain ⟨a1, a2, a3⟩ := fail_line hqC _ _ _ _ hc
          have a3 : from' ≤ f.st.line := a3
          refine ⟨by rw [← hln]; exact a1, a3, by rw [← hel]; exact a2, ?_⟩
          obtain ⟨k, o, stF, b1, b2, b3⟩ := failX hqC _ _ _ _ hc a3 (show (-1 : Int) ≠ _ by omega)
          have b1' : Big (env.call from' (f.st.line - from') mode) (.colorize ⟨none, false, p.base, []⟩ p.me)
              { startState p from' ⟨[], root⟩ with level := 0 } o stF := by
            rw [← hto]; exact b1
          refine ⟨_, parses_of_cb he (CB.nil b1'), ?_, fun hb => ?_⟩
          · show stF.evs ++ _ = _
            rw [b2.evs]
          · have hk : k = 0 := by
              have := b2.bal
              have e0 : bal (startState p from' ⟨[], root⟩).evs = 0 := rfl
              simp only [e0] at this
              unfold bal at this
              dsimp only at hb
              omega
            subst hk
            obtain ⟨c1, c2⟩ := b3 rfl
            have hzip : stF.zip = f.st.zip := by rw [b2.zip]; split <;> rfl
            have hfr : f.st.zip.frames = [] := by
              have := big_depth b1'
              rw [hzip] at this
              exact List.length_eq_zero_iff.mp this
            simp only [c1, c2, b2.endLine, hzip, hfr, leaveOpen, List.append_nil]
        · cases hc

theorem climbX_climb (env : Env) (fuel base : Nat) : ∀ fs me st, toR (climbX env fuel base fs me st) = climb env fuel base fs me st := by
  intro fs
  induction fs with
  | nil =>
    intro me st
    rw [climbX, climb, toR_andThen, runX_run]; rfl
  | cons f fs ih =>
    intro me st
    rw [climbX, climb, toR_andThen, runX_run]
    congr 1
    funext a
    exact ih _ _

/-- a parse that fails here fails in the model of the other theorems, and a parse that does not has the same result there -/
theorem parseX_parse (env : Env) (fuel : Nat) (p : PState) (from' num : Int) (mode : Mode) :
    (∀ r, parseX env fuel p from' num mode = .ok r ↔ parse env fuel p from' num mode = .ok r) ∧
    (∀ x, parseX env fuel p from' num mode = .failed x → parse env fuel p from' num mode = .error (.null x.line)) := by
  unfold parseX parse
  cases entry p from' mode with
  | none => exact ⟨fun r => ⟨(fun h => by cases h), (fun h => by cases h)⟩, fun x h => by cases h⟩
  | some z =>
    simp only
    rw [← climbX_climb]
    generalize climbX _ _ _ _ _ _ = y
    cases y with
    | ok a => exact ⟨fun r => ⟨(fun h => by cases h; rfl), (fun h => by cases h; rfl)⟩, fun x h => by cases h⟩
    | error e =>
      cases e with
      | fuel => exact ⟨fun r => ⟨(fun h => by cases h), (fun h => by cases h)⟩, fun x h => by cases h⟩
      | null f =>
        simp only [outcome]
        refine ⟨fun r => ⟨fun h => ?_, fun h => by cases h⟩, fun x h => ?_⟩
        · split at h <;> cases h
        · split at h
          · cases h
          · cases h; rfl

/-! ## What happens inside a block -/

namespace Demo

/-- the text of the demo, but line `l` is not there -/
def without (l : Int) : Env := { env with line := fun i => if i = l then none else line i }

def fails : Outcome → Option Failed
  | .failed f => some f
  | _ => none

theorem eq_failed {o : Outcome} {f : Failed} (h : fails o = some f) : o = .failed f := by
  cases o with
  | failed g => cases h; rfl
  | ok _ | fuel | line | notModelled => cases h

/-- the hypotheses of C78: all blocks are closed when line 4 turns out to be missing; the parser is left with the scheme it had -/
example : (fails (parseX env 200 p0 0 6 .update)).map (fun f => (f.line, f.left.base, f.evs.countP isEnter, f.evs.countP isLeave)) =
    some (4, 0, 2, 2) := by decide +kernel
example : ∀ z, entry p0 0 .update = some z → z.frames = [] := by
  have h : (entry p0 0 .update).map (fun z => z.frames.length) = some 0 := by decide +kernel
  intro z hz
  rw [hz] at h
  exact List.length_eq_zero_iff.mp (Option.some.inj h)

def leftOf (o : Outcome) : PState := ((fails o).map Failed.left).getD p0

/-- C78 fails when a block is open at the missing line: the text is `a(`, `[x`, `]x`, `)`, line 1 cannot be had, and the parse ends in an exception
inside `(`. Afterwards all lines are there, and the same parser is asked for the whole text again: it takes the content of the brackets for the
root and does not find the block any more, which a parser that has not failed does. -/
theorem C78_violated_open_block :
    ∃ (env : Env) (mode : Mode) (text : Int → Option Text) (fuel : Nat) (p : PState) (x : Failed) (r r' : Result),
      (∀ t, env.brk t = false) ∧ p.base = 0 ∧ p.cache = [] ∧
      parseX env fuel p 0 4 mode = .failed x ∧ x.line = 1 ∧ x.left.base = 1 ∧
      parse { env with line := text } fuel p 0 4 .update = .ok r ∧ Ev.enter 0 1 2 (some 1) 1 ∈ r.evs ∧
      parse { env with line := text } fuel x.left 0 4 .update = .ok r' ∧ ∀ l s e reg sch, Ev.enter l s e reg sch ∈ r'.evs → reg ≠ some 1 := by
  have h1 : (fails (parseX (without 1) 200 p0 0 4 .read)).map (fun f => (f.line, f.left.base)) = some (1, 1) := by decide +kernel
  have h2 : okk full = true := by decide +kernel
  have h3 : Ev.enter 0 1 2 (some 1) 1 ∈ evsOf full := by decide +kernel
  have h4 : okk (parse env 200 (leftOf (parseX (without 1) 200 p0 0 4 .read)) 0 4 .update) = true := by decide +kernel
  have h5 : (evsOf (parse env 200 (leftOf (parseX (without 1) 200 p0 0 4 .read)) 0 4 .update)).all
      (fun e => match e with | .enter _ _ _ reg _ => decide (reg ≠ some 1) | _ => true) = true := by decide +kernel
  cases e1 : fails (parseX (without 1) 200 p0 0 4 .read) with
  | none => rw [e1] at h1; cases h1
  | some x =>
    rw [e1] at h1
    unfold leftOf at h4 h5
    rw [e1] at h4 h5
    simp only [Option.map_some, Option.getD_some] at h4 h5
    have h1 := Option.some.inj h1
    unfold full at *
    cases e2 : parse env 200 p0 0 4 .update with
    | error _ => rw [e2] at h2; cases h2
    | ok r =>
      cases e3 : parse env 200 x.left 0 4 .update with
      | error _ => rw [e3] at h4; cases h4
      | ok r' =>
        rw [e2] at h3
        rw [e3] at h5
        refine ⟨without 1, .read, line, 200, p0, x, r, r', fun _ => rfl, rfl, rfl, eq_failed e1, congrArg Prod.fst h1, congrArg Prod.snd h1,
          e2, h3, e3, fun l s e reg sch hm => ?_⟩
        have := List.all_eq_true.mp h5 _ hm
        simpa using this

end Demo

end Verif.TextParser
