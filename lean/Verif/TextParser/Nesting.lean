import Verif.TextParser.Rules
/-!
# C33: schemes nest

Specification: `nest open evs` reads the events with the stack of schemes still open (region and, if known, scheme; innermost first):
entering pushes, leaving needs the same region and scheme on top. `none` is a violation.
-/
namespace Verif.TextParser
open Verif.VTList (VEntries resolve)

/-- an open scheme; the scheme announced by a pseudo entry is not checked -/
abbrev Open := Option Nat × Option Nat

/-- may a `leave` with this region and scheme close this open scheme? -/
def closes (r : Option Nat) (s : Nat) (o : Open) : Bool := o.1 == r && (o.2 == none || o.2 == some s)

def nestStep (S : List Open) : Ev → Option (List Open)
  | .enter _ _ _ r s => some ((r, some s) :: S)
  | .pseudo _ r _ => some ((r, none) :: S)
  | .leave _ _ _ r s =>
    match S with
    | o :: S => if closes r s o then some S else none
    | [] => none
  | _ => some S

def nest (S : List Open) : List Ev → Option (List Open)
  | [] => some S
  | e :: es => (nestStep S e).bind fun S => nest S es

/-! ## Proof -/

theorem nest_append (a b : List Ev) : ∀ S, nest S (a ++ b) = (nest S a).bind fun T => nest T b := by
  induction a with
  | nil => intro S; rfl
  | cons e a ih =>
    intro S
    rw [List.cons_append, nest, nest]
    cases nestStep S e with
    | none => rfl
    | some T => exact ih T

theorem nest_regEv (l : Int) (g : Int × Int) (r : Option Nat) (S : List Open) : nest S (regEv l g r) = some S := by
  unfold regEv
  split
  · rfl
  · split <;> rfl

theorem nest_flatten (ls : List (List Ev)) (h : ∀ l ∈ ls, ∀ S, nest S l = some S) (S : List Open) : nest S ls.flatten = some S := by
  induction ls with
  | nil => rfl
  | cons l ls ih =>
    rw [List.flatten_cons, nest_append, h l (by simp)]
    exact ih (fun x hx => h x (by simp [hx]))

theorem nest_regEvs (l : Int) (m : Match) (regs : List (Option Nat)) (S : List Open) : nest S (regEvs l m regs) = some S := by
  unfold regEvs
  refine nest_flatten _ ?_ S
  intro x hx S
  simp only [List.mem_map] at hx
  obtain ⟨y, _, rfl⟩ := hx
  exact nest_regEv _ _ _ _

theorem nest_enter (l : Int) (m : Match) (b : Block) (s : Nat) (S : List Open) :
    nest S (enterEvs l m b s) = some ((b.region, some s) :: S) := by
  unfold enterEvs
  split
  · rw [nest_append, nest_regEvs]; rfl
  · rw [nest]; simp only [nestStep, Option.bind_some]; exact nest_regEvs _ _ _ _

theorem nest_leave (l : Int) (m : Match) (b : Block) (s : Nat) (S : List Open) (o : Open) (h : closes b.region s o = true) :
    nest (o :: S) (leaveEvs l m b s) = some S := by
  unfold leaveEvs
  split
  · rw [nest]
    simp only [nestStep, h, if_true, Option.bind_some]
    exact nest_regEvs _ _ _ _
  · rw [nest_append, nest_regEvs]
    simp [nest, nestStep, h]

/-- the open schemes of a path -/
def opens (fs : List Frame) : List Open := fs.map fun f => (f.info.block.region, none)

theorem nest_pseudos (l : Int) (fs : List Frame) (s : Nat) : ∀ S, nest S (pseudos l fs s) = some (opens fs ++ S) := by
  induction fs with
  | nil => intro S; rfl
  | cons f fs ih =>
    intro S
    unfold pseudos at ih ⊢
    rw [List.reverse_cons, List.map_append, nest_append, ih]
    simp [nest, nestStep, opens]

/-- what the first line adds -/
def pre (env : Env) : Call → St → List Open
  | .colorize _ _, st | .outer _ _, st => if st.filled = false ∧ st.line < env.endL then opens st.zip.frames else []
  | _, _ => []

def NPre (env : Env) : Call → St → Prop
  | .colorize _ _, st => st.level > env.limit → st.filled = true
  | .outer _ _, _ => True
  | _, st => st.filled = true ∧ st.line < env.endL

/-- the events of a call open and close schemes properly; if it ends before the end of the range everything it opened is closed -/
def NPost (env : Env) (c : Call) (st : St) (o : Out) (st' : St) : Prop :=
  (∃ new T, st'.evs = st.evs ++ new ∧ (st'.line < env.endL → T = []) ∧ ∀ S, nest S new = some (T ++ (pre env c st ++ S))) ∧
  (st.line < env.endL → st'.filled = true) ∧ (¬ st.line < env.endL → st'.evs = st.evs ∧ ¬ st'.line < env.endL) ∧
  (st.filled = true → st'.filled = true) ∧
  match c with
  | .cols _ _ _ _ => o.rep = false → st'.line = st.line ∨ env.endL ≤ st'.line
  | .nodes _ _ _ _ _ => o.res ≠ .scheme → st'.line = st.line
  | _ => True

theorem startLine_nest {env : Env} {c : Ctx} {st st1 : St} (hl : st.line < env.endL) (h1 : startLine env c st = .ok st1) :
    st1.filled = true ∧ st1.line = st.line ∧ st1.zip = st.zip ∧
    ∃ new, st1.evs = st.evs ++ new ∧ ∀ S, nest S new = some ((if st.filled = false ∧ st.line < env.endL then opens st.zip.frames else []) ++ S) := by
  obtain ⟨st2, h2, h3⟩ := andThen_ok h1
  cases h3
  have key : st2.filled = st.filled ∧ st2.line = st.line ∧ st2.zip = st.zip ∧ ∃ new, st2.evs = st.evs ++ new ∧ ∀ S, nest S new = some S := by
    unfold openLine at h2
    split at h2
    · split at h2
      · simp at h2
      · cases h2; exact ⟨rfl, rfl, rfl, _, rfl, fun S => rfl⟩
    · cases h2; exact ⟨rfl, rfl, rfl, [], by simp, fun S => rfl⟩
  obtain ⟨k1, k2, k3, new, k4, k5⟩ := key
  unfold fill
  split
  · rename_i hf
    refine ⟨hf, k2, k3, new, k4, fun S => ?_⟩
    rw [if_neg (by rw [← k1, hf]; simp), k5]; rfl
  · rename_i hf
    refine ⟨rfl, k2, k3, new ++ pseudos st2.line st2.zip.frames c.scheme, ?_, fun S => ?_⟩
    · show st2.evs ++ _ = _
      rw [k4, List.append_assoc]
    · rw [if_pos ⟨by rw [← k1]; simpa using hf, hl⟩, nest_append, k5, Option.bind_some, nest_pseudos, k3]

theorem run_nest {env : Env} {c : Call} {st : St} {o : Out} {st' : St} (h : Big env c st o st') :
    NPre env c st → NPost env c st o st' := by
  induction h with
  | @limit c me st hl =>
    intro h
    have hf := h hl
    refine ⟨⟨[], [], by simp, fun _ => rfl, fun S => by simp [pre, hf, nest]⟩, fun _ => hf, fun h => ⟨rfl, h⟩, fun h => h, trivial⟩
  | @colorize c me st o st1 hl _ ih =>
    intro h
    obtain ⟨⟨new, T, a1, a2, a3⟩, a4, a5, a6, _⟩ := ih trivial
    exact ⟨⟨new, T, a1, a2, a3⟩, a4, a5, a6, trivial⟩
  | @outEnd c me st hl =>
    intro _
    refine ⟨⟨[], [], by simp, fun _ => rfl, fun S => by simp [pre, hl, nest]⟩, fun h => absurd h hl, fun h => ⟨rfl, h⟩, fun h => h, trivial⟩
  | @outRep c me st st1 o st2 o' st' hl h1 _ hr _ ih1 ih2 =>
    intro _
    obtain ⟨b1, b2, b3, n1, b4, b5⟩ := startLine_nest hl h1
    obtain ⟨⟨n2, T2, a1, a2, a3⟩, a4, a5, a6, _⟩ := ih1 ⟨b1, by show st1.line < _; omega⟩
    have hf2 : st2.filled = true := a6 b1
    obtain ⟨⟨n3, T3, c1, c2, c3⟩, c4, c5, c6, _⟩ := ih2 trivial
    refine ⟨⟨n1 ++ n2 ++ n3, T3 ++ T2, ?_, ?_, ?_⟩, fun _ => c6 hf2, fun h => absurd hl h, fun _ => c6 hf2, trivial⟩
    · rw [c1, a1]
      show st1.evs ++ n2 ++ n3 = _
      rw [b4]; simp
    · intro hlt
      by_cases h2 : st2.line < env.endL
      · rw [c2 hlt, a2 h2]; rfl
      · exact absurd hlt (c5 h2).2
    · intro S
      rw [nest_append, nest_append, b5, Option.bind_some, a3, Option.bind_some, c3]
      simp [pre, hf2, hl]
  | @outStop c me st st1 o st2 hl h1 _ hr ha ih1 =>
    intro _
    obtain ⟨b1, b2, b3, n1, b4, b5⟩ := startLine_nest hl h1
    obtain ⟨⟨n2, T2, a1, a2, a3⟩, a4, a5, a6, _⟩ := ih1 ⟨b1, by show st1.line < _; omega⟩
    have hf2 : st2.filled = true := a6 b1
    refine ⟨⟨n1 ++ n2, T2, ?_, a2, ?_⟩, fun _ => hf2, fun h => absurd hl h, fun _ => hf2, trivial⟩
    · show st2.evs = _
      rw [a1]
      show st1.evs ++ n2 = _
      rw [b4]; simp
    · intro S
      rw [nest_append, b5, Option.bind_some, a3]
      simp [pre]
  | @outNext c me st st1 o st2 o' st' hl h1 _ hr ha _ ih1 ih2 =>
    intro _
    obtain ⟨b1, b2, b3, n1, b4, b5⟩ := startLine_nest hl h1
    obtain ⟨⟨n2, T2, a1, a2, a3⟩, a4, a5, a6, a7⟩ := ih1 ⟨b1, by show st1.line < _; omega⟩
    have hf2 : st2.filled = true := a6 b1
    obtain ⟨⟨n3, T3, c1, c2, c3⟩, c4, c5, c6, _⟩ := ih2 trivial
    refine ⟨⟨n1 ++ n2 ++ n3, T3 ++ T2, ?_, ?_, ?_⟩, fun _ => c6 hf2, fun h => absurd hl h, fun _ => c6 hf2, trivial⟩
    · rw [c1]
      show st2.evs ++ n3 = _
      rw [a1]
      show st1.evs ++ n2 ++ n3 = _
      rw [b4]; simp
    · intro hlt
      by_cases h2 : (nextLine st2).line < env.endL
      · rw [c2 hlt, a2 (by have : st2.line + 1 < env.endL := h2; omega)]; rfl
      · exact absurd hlt (c5 h2).2
    · intro S
      rw [nest_append, nest_append, b5, Option.bind_some, a3, Option.bind_some, c3]
      have : (nextLine st2).filled = true := hf2
      simp [pre, this, hl]
  | @colEnd c me len plen st hg =>
    rintro ⟨h1, h2⟩
    exact ⟨⟨[], [], by simp, fun _ => rfl, fun S => rfl⟩, fun _ => h1, fun h => absurd h2 h, fun _ => h1, fun _ => Or.inl rfl⟩
  | @colBrk c me len plen st hg hb =>
    rintro ⟨h1, h2⟩
    exact ⟨⟨[], [], by simp, fun _ => rfl, fun S => rfl⟩, fun _ => h1, fun h => absurd h2 h, fun _ => h1, fun _ => Or.inr (Int.le_refl _)⟩
  | @colRep c me len plen st o st1 hg hb _ hr ih1 =>
    rintro ⟨h1, h2⟩
    obtain ⟨⟨n2, T2, a1, a2, a3⟩, a4, a5, a6, _⟩ := ih1 ⟨h1, h2⟩
    exact ⟨⟨n2, T2, a1, a2, a3⟩, fun _ => a6 h1, fun h => absurd h2 h, fun _ => a6 h1, by intro h; simp at h⟩
  | @colGo c me len plen st o st1 o' st' hg hb _ hr _ ih1 ih2 =>
    rintro ⟨h1, h2⟩
    obtain ⟨⟨n2, T2, a1, a2, a3⟩, a4, a5, a6, a7⟩ := ih1 ⟨h1, h2⟩
    have hln : st1.line = st.line := by
      by_cases hs : o.res = .scheme
      · unfold reparse at hr
        rw [not_or] at hr
        have := hr.1
        rw [not_and] at this
        have := this hs
        rw [not_or, Decidable.not_not] at this
        exact this.1
      · exact a7 hs
    have e1 : (bump o st1).line = st1.line ∧ (bump o st1).evs = st1.evs ∧ (bump o st1).filled = st1.filled := by
      unfold bump; split <;> exact ⟨rfl, rfl, rfl⟩
    have hf : (bump o st1).filled = true := by rw [e1.2.2]; exact a6 h1
    obtain ⟨⟨n3, T3, c1, c2, c3⟩, c4, c5, c6, c7⟩ := ih2 ⟨hf, by omega⟩
    refine ⟨⟨n2 ++ n3, T3 ++ T2, ?_, ?_, ?_⟩, fun _ => c6 hf, fun h => absurd h2 h, fun _ => c6 hf, ?_⟩
    · rw [c1, e1.2.1, a1, List.append_assoc]; rfl
    · intro h; rw [c2 h, a2 (by omega)]; rfl
    · intro S; rw [nest_append, a3, Option.bind_some, c3]; simp [pre]
    · intro h
      have := c7 h
      omega
  | nil =>
    rintro ⟨h1, h2⟩
    exact ⟨⟨[], [], by simp, fun _ => rfl, fun S => rfl⟩, fun _ => h1, fun h => absurd h2 h, fun _ => h1, fun _ => rfl⟩
  | inhNone _ ih => exact ih
  | inhHit _ hr ih =>
    intro h
    obtain ⟨a, a4, a5, a6, a7⟩ := ih h
    exact ⟨a, a4, a5, a6, a7⟩
  | @inhMiss s virt ns levels low hi me st o st1 o' st' _ hr _ ih1 ih2 =>
    rintro ⟨h1, h2⟩
    obtain ⟨⟨n2, T2, a1, a2, a3⟩, a4, a5, a6, a7⟩ := ih1 ⟨h1, h2⟩
    have hln : st1.line = st.line := a7 (by rw [hr]; simp)
    obtain ⟨⟨n3, T3, c1, c2, c3⟩, c4, c5, c6, c7⟩ := ih2 ⟨a6 h1, by omega⟩
    refine ⟨⟨n2 ++ n3, T3 ++ T2, ?_, ?_, ?_⟩, fun _ => c6 (a6 h1), fun h => absurd h2 h, fun _ => c6 (a6 h1), ?_⟩
    · rw [c1, a1, List.append_assoc]
    · intro h; rw [c2 h, a2 (by omega)]; rfl
    · intro S; rw [nest_append, a3, Option.bind_some, c3]; simp [pre]
    · intro h; rw [c7 h, hln]
  | kwHit hk =>
    rintro ⟨h1, h2⟩
    exact ⟨⟨_, [], rfl, fun _ => rfl, fun S => nest_regEv _ _ _ _⟩, fun _ => h1, fun h => absurd h2 h, fun _ => h1, fun _ => rfl⟩
  | kwMiss hk _ ih => exact ih
  | reHit ha he =>
    rintro ⟨h1, h2⟩
    exact ⟨⟨_, [], rfl, fun _ => rfl, fun S => nest_regEvs _ _ _ _⟩, fun _ => h1, fun h => absurd h2 h, fun _ => h1, fun _ => rfl⟩
  | @reZero start lowP regs ns levels low hi me st m o st' ha he _ ih =>
    rintro ⟨h1, h2⟩
    obtain ⟨⟨n2, T2, a1, a2, a3⟩, a4, a5, a6, a7⟩ := ih ⟨h1, h2⟩
    refine ⟨⟨regEvs st.line m regs ++ n2, T2, ?_, a2, fun S => ?_⟩, a4, fun h => absurd h2 h, a6, a7⟩
    · rw [a1]
      show st.evs ++ _ ++ _ = _
      rw [List.append_assoc]
    · rw [nest_append, nest_regEvs, Option.bind_some]; exact a3 S
  | reMiss ha _ ih => exact ih
  | blNone hs _ ih => exact ih
  | blMiss hs ha _ ih => exact ih
  | @blZero b s ns levels low hi me st m o st1 o' st' hs ha _ hz1 hz2 _ ih1 ih2 =>
    rintro ⟨h1, h2⟩
    obtain ⟨⟨n2, T2, a1, a2, a3⟩, a4, a5, a6, _⟩ := ih1 (fun _ => h1)
    have hlt : st1.line < env.endL := by omega
    have hT := a2 hlt
    subst hT
    obtain ⟨⟨n3, T3, c1, c2, c3⟩, c4, c5, c6, c7⟩ := ih2 ⟨a6 h1, hlt⟩
    have hp : pre env (.colorize (blockCtx env b s levels st m) me) (beforeBlock env b (target s levels []).1 (target s levels []).2 m st.tock) = [] := by
      simp [pre, beforeBlock, St.tock, h1]
    refine ⟨⟨enterEvs st.line m b (target s levels []).1 ++ n2 ++ leaveEvs st1.line o.me b (target s levels []).1 ++ n3, T3, ?_, c2, ?_⟩,
      fun _ => c6 (a6 h1), fun h => absurd h2 h, fun _ => c6 (a6 h1), ?_⟩
    · rw [c1]
      show st1.evs ++ _ ++ n3 = _
      rw [if_pos hlt, a1]
      show st.evs ++ _ ++ _ ++ _ ++ _ = _
      simp [St.tock]
    · intro S
      rw [nest_append, nest_append, nest_append, nest_enter, Option.bind_some, a3, hp]
      simp only [List.nil_append, Option.bind_some]
      rw [nest_leave _ _ _ _ _ _ (by simp [closes]), Option.bind_some]
      exact c3 S
    · intro h
      rw [c7 h]
      exact hz2.symm
  | @blHit b s ns levels low hi me st m o st1 hs ha _ hz ih1 =>
    rintro ⟨h1, h2⟩
    obtain ⟨⟨n2, T2, a1, a2, a3⟩, a4, a5, a6, _⟩ := ih1 (fun _ => h1)
    have hp : pre env (.colorize (blockCtx env b s levels st m) me) (beforeBlock env b (target s levels []).1 (target s levels []).2 m st.tock) = [] := by
      simp [pre, beforeBlock, St.tock, h1]
    by_cases hlt : st1.line < env.endL
    · have hT := a2 hlt
      subst hT
      refine ⟨⟨enterEvs st.line m b (target s levels []).1 ++ n2 ++ leaveEvs st1.line o.me b (target s levels []).1, [], ?_, fun _ => rfl, ?_⟩,
        fun _ => a6 h1, fun h => absurd h2 h, fun _ => a6 h1, fun h => absurd rfl h⟩
      · show st1.evs ++ _ = _
        rw [if_pos hlt, a1]
        show st.evs ++ _ ++ _ ++ _ = _
        simp [St.tock]
      · intro S
        rw [nest_append, nest_append, nest_enter, Option.bind_some, a3, hp]
        simp only [List.nil_append, Option.bind_some]
        rw [nest_leave _ _ _ _ _ _ (by simp [closes])]
        rfl
    · refine ⟨⟨enterEvs st.line m b (target s levels []).1 ++ n2, T2 ++ [(b.region, some (target s levels []).1)], ?_, fun h => absurd h hlt, ?_⟩,
        fun _ => a6 h1, fun h => absurd h2 h, fun _ => a6 h1, fun h => absurd rfl h⟩
      · show st1.evs ++ _ = _
        rw [if_neg hlt, a1]
        show st.evs ++ _ ++ _ ++ _ = _
        simp [St.tock]
      · intro S
        rw [nest_append, nest_enter, Option.bind_some, a3, hp]
        simp [pre]

theorem climb_nest {env : Env} {fuel base : Nat} (fs : List Frame) : ∀ (me : Match) (st : St) (me' : Match) (st' : St),
    (st.filled = true ∨ st.zip.frames = fs) → climb env fuel base fs me st = .ok (me', st') →
    (∃ new T, st'.evs = st.evs ++ new ∧
      (¬ st.line < env.endL → new = []) ∧
      (st.line < env.endL → ∀ S, nest (if st.filled then opens fs ++ S else S) new = some (T ++ S))) := by
  induction fs with
  | nil =>
    intro me st me' st' hf hc
    obtain ⟨⟨o, st1⟩, h1, h2⟩ := andThen_ok hc
    cases h2
    obtain ⟨⟨new, T, a1, a2, a3⟩, a4, a5, a6, _⟩ := run_nest (run_big _ _ _ _ _ _ h1) (fun h => absurd h (by simp))
    refine ⟨new, T, a1, ?_, ?_⟩
    · intro h
      have := (a5 h).1
      rw [this] at a1
      simpa using a1
    · intro hl S
      have h3 := a3 S
      simp only [pre] at h3
      rcases hf with hf | hf
      · rw [if_pos hf]
        rw [if_neg (by simp [hf])] at h3
        exact h3
      · rw [hf] at h3
        simp only [opens, List.map_nil, ite_self, List.nil_append] at h3
        simp only [opens, List.map_nil, List.nil_append, ite_self]
        exact h3
  | cons f fs ih =>
    intro me st me' st' hf hc
    obtain ⟨⟨o, st1⟩, h1, h2⟩ := andThen_ok hc
    obtain ⟨⟨new, T, a1, a2, a3⟩, a4, a5, a6, _⟩ := run_nest (run_big _ _ _ _ _ _ h1) (fun h => absurd h (by simp))
    by_cases hl : st.line < env.endL
    · have hf1 : st1.filled = true := a4 hl
      have h2 : climb env fuel base fs o.me (afterFrame env f.info st1 o.me) = .ok (me', st') := h2
      obtain ⟨n2, T2, c1, c2, c3⟩ := ih _ _ _ _ (Or.inl (show (afterFrame env f.info st1 o.me).filled = true from hf1)) h2
      have h3 : ∀ S, nest (if st.filled then opens (f :: fs) ++ S else S) new = some (T ++ (opens (f :: fs) ++ S)) := by
        intro S
        by_cases hff : st.filled = true
        · rw [if_pos hff, a3]
          simp [pre, hff]
        · rw [if_neg hff, a3]
          rcases hf with hf | hf
          · exact absurd hf hff
          · simp [pre, hff, hl, hf]
      by_cases hlt : st1.line < env.endL
      · refine ⟨new ++ leaveEvs st1.line o.me f.info.block f.info.scheme ++ n2, T2, ?_, fun h => absurd hl h, fun _ S => ?_⟩
        · rw [c1]
          show st1.evs ++ _ ++ n2 = _
          rw [if_pos hlt, a1]
          simp
        · rw [nest_append, nest_append, h3, a2 hlt, Option.bind_some]
          have hff : (afterFrame env f.info st1 o.me).filled = true := hf1
          simp only [opens, List.map_cons, List.nil_append, List.cons_append]
          rw [nest_leave _ _ _ _ _ _ (by simp [closes]), Option.bind_some]
          have := c3 hlt S
          rw [if_pos hff] at this
          exact this
      · have hn2 : n2 = [] := c2 hlt
        subst hn2
        refine ⟨new, T ++ opens (f :: fs), ?_, fun h => absurd hl h, fun _ S => ?_⟩
        · rw [c1]
          show st1.evs ++ _ ++ [] = _
          rw [if_neg hlt, a1]
          simp
        · rw [h3, List.append_assoc]
    · obtain ⟨e1, e2⟩ := a5 hl
      have hlt : ¬ (afterFrame env f.info st1 o.me).line < env.endL := e2
      have hz : st1.filled = true ∨ True := Or.inr trivial
      -- no events any more
      have nothing : ∀ (fs : List Frame) (me : Match) (st : St) (me' : Match) (st' : St), ¬ st.line < env.endL →
          climb env fuel base fs me st = .ok (me', st') → st'.evs = st.evs := by
        intro fs
        induction fs with
        | nil =>
          intro me st me' st' hl hc
          obtain ⟨⟨o, st1⟩, h1, h2⟩ := andThen_ok hc
          cases h2
          obtain ⟨_, _, a5, _⟩ := run_nest (run_big _ _ _ _ _ _ h1) (fun h => absurd h (by simp))
          exact (a5 hl).1
        | cons f fs ih =>
          intro me st me' st' hl hc
          obtain ⟨⟨o, st1⟩, h1, h2⟩ := andThen_ok hc
          obtain ⟨_, _, a5, _⟩ := run_nest (run_big _ _ _ _ _ _ h1) (fun h => absurd h (by simp))
          have a5 := a5 hl
          have h2 : climb env fuel base fs o.me (afterFrame env f.info st1 o.me) = .ok (me', st') := h2
          rw [ih _ _ _ _ (show ¬ (afterFrame env f.info st1 o.me).line < env.endL from a5.2) h2]
          show st1.evs ++ _ = _
          have h0 : ¬ st1.line < env.endL := a5.2
          rw [if_neg h0, a5.1]
          simp
      refine ⟨[], [], ?_, fun _ => rfl, fun h => absurd h hl⟩
      rw [nothing _ _ _ _ _ hlt h2]
      show st1.evs ++ _ = _
      have h0 : ¬ st1.line < env.endL := e2
      rw [if_neg h0, e1]

/-- C33: whatever the expressions answer, and also for a parse that resumes inside blocks or is broken off: every leave closes the
scheme entered last that is still open, with the same region and the same scheme (for schemes opened before the resumed line: with the
region of their pseudo entry). What is open at the end are the blocks that the range ends in. -/
theorem C33_schemes_nest (env : Env) (fuel : Nat) (p : PState) (from' num : Int) (mode : Mode) (r : Result)
    (h : parse env fuel p from' num mode = .ok r) : ∃ open', nest [] r.evs = some open' := by
  unfold parse at h
  split at h
  · simp at h
  · rename_i z hz
    obtain ⟨⟨me, st⟩, h1, h2⟩ := andThen_ok h
    cases h2
    obtain ⟨new, T, a1, a2, a3⟩ := climb_nest z.frames p.me _ me st (Or.inr rfl) h1
    by_cases hl : (startState p from' z).line < from' + num
    · refine ⟨T, ?_⟩
      have := a3 hl []
      simp only [startState, Bool.false_eq_true, if_false, List.append_nil] at this
      simp only [a1, startState, List.cons_append, List.nil_append, nest, nestStep, Option.bind_some]
      rw [nest_append, this]
      rfl
    · have := a2 hl
      subst this
      exact ⟨[], by simp only [a1]; rfl⟩

end Verif.TextParser
