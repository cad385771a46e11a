import Verif.RegExp.Match

/-!
# Runs that do not close a group (for C80, C81)

A group of the matches structure is written only when the bracket with its number is closed; the begin and the end of the match are also written by
the marks `\m`, `\M`. `Quiet g c`: from the configuration `c` on, no such bracket can be closed, no such mark passed. Then a run leaves the group as
it was.
-/
namespace Verif.RegExp

/-- a group: by number, or a named one; or a mark: `\m`, or (`stop`) `\M` -/
inductive Grp where
  | num (i : Nat)
  | name (i : Nat)
  | mark (stop : Bool)
deriving DecidableEq, Repr

/-- where the group begins and ends; where the match is marked to begin (end), and whether it is -/
def Mem.place (m : Mem) : Grp → Int × Int
  | .num i => (m.m.s i, m.m.e i)
  | .name i => (m.m.ns i, m.m.ne i)
  | .mark false => (m.m.s 0, if m.startChange then 1 else 0)
  | .mark true => (m.m.e 0, if m.endChange then 1 else 0)

/-- the bracket with this number writes the group -/
def Grp.hasNum : Grp → Nat → Bool
  | .num i, j => decide (i = j)
  | .name _, _ => false
  | .mark _, j => decide (j = 0)

/-- the symbol is the mark -/
def Grp.isMark : Grp → Meta → Bool
  | .mark false, .start => true
  | .mark true, .stop => true
  | _, _ => false

/-- a numbered bracket of another group, or of none -/
def notNum (g : Grp) : Option Nat → Bool
  | some j => !g.hasNum j
  | none => true

/-- a named bracket of another group, or of none -/
def notName (g : Grp) : Option Nat → Bool
  | some j => decide (g ≠ .name j)
  | none => true

mutual
/-- no bracket of the group -/
def lacksG (g : Grp) : List Node → Bool
  | [] => true
  | n :: ns => lacksGN g n && lacksG g ns
def lacksGN (g : Grp) : Node → Bool
  | .brackets idx b => notNum g idx && lacksG g b
  | .named idx b => notName g idx && lacksG g b
  | .ahead b | .nahead b | .behind _ b | .nbehind _ b | .or b | .rangeN _ b | .rangeNM _ _ b | .ngRangeN _ b | .ngRangeNM _ _ b => lacksG g b
  | .msym k => !g.isMark k
  | .empty | .symb _ | .word _ | .enum _ | .nenum _ | .bkTrace _ | .bkTraceN _ | .bkTraceName _ | .bkTraceNName _ | .bkBrack _
  | .bkBrackName _ => true
end

/-- leaving the node, or going through it again, does not close the group -/
def exitG (g : Grp) : Node → Bool
  | .brackets idx _ => notNum g idx
  | .named idx _ => notName g idx
  | .rangeN _ b | .rangeNM _ _ b | .ngRangeN _ b | .ngRangeNM _ _ b => lacksG g b
  | .ahead _ | .nahead _ | .behind _ _ | .nbehind _ _ | .or _ => true
  | .msym k => !g.isMark k
  | .empty | .symb _ | .word _ | .enum _ | .nenum _ | .bkTrace _ | .bkTraceN _ | .bkTraceName _ | .bkTraceNName _ | .bkBrack _
  | .bkBrackName _ => true

/-- `x?` or `x??` -/
def quest : Node → Bool
  | .rangeNM s e _ | .ngRangeNM s e _ => decide (s = 0) && decide (e = 1)
  | .rangeN _ _ | .ngRangeN _ _ | .ahead _ | .nahead _ | .behind _ _ | .nbehind _ _ | .or _ | .brackets _ _ | .named _ _ => false
  | .empty | .msym _ | .symb _ | .word _ | .enum _ | .nenum _ | .bkTrace _ | .bkTraceN _ | .bkTraceName _ | .bkTraceNName _ | .bkBrack _
  | .bkBrackName _ => false

/-- what comes when the nodes of the pointer are left does not close the group (if the body of an `x?` is behind for good, see `Zeros`) -/
def upLacks (g : Grp) : List (List Node) → Bool
  | [] => true
  | [] :: up => upLacks g up
  | (n :: ns) :: up => (exitG g n || quest n) && lacksG g ns && upLacks g up

/-- an `x?` around has its counters at 0: its body is not entered again -/
def Zeros (g : Grp) (m : Mem) : List (List Node) → Prop
  | [] => True
  | [] :: up => Zeros g m up
  | (n :: ns) :: up => (exitG g n = false → (m.vars (addr ((n :: ns) :: up))).p0 = 0 ∧ (m.vars (addr ((n :: ns) :: up))).p1 = 0) ∧ Zeros g m up

def posLacks (g : Grp) : List (List Node) → Bool
  | [] => true
  | l :: up => lacksG g l && upLacks g up

/-- from here on the group is not closed -/
def Quiet (g : Grp) (c : Cfg) : Bool := if c.left then posLacks g c.pos else upLacks g c.pos

theorem exit_of_lacks {g : Grp} {n : Node} (h : lacksGN g n = true) : exitG g n = true := by
  cases n <;> first | rfl | (rw [lacksGN] at h; exact h) | (rw [lacksGN, Bool.and_eq_true] at h; exact h.1)

theorem up_of_pos {g : Grp} {pos : List (List Node)} (h : posLacks g pos = true) : upLacks g pos = true := by
  match pos with
  | [] => rfl
  | [] :: up => rw [posLacks, Bool.and_eq_true] at h; exact h.2
  | (n :: ns) :: up =>
    rw [posLacks, lacksG, Bool.and_eq_true, Bool.and_eq_true] at h
    rw [upLacks, exit_of_lacks h.1.1, h.1.2, h.2]; rfl

theorem up_of_quiet {g : Grp} {c : Cfg} (h : Quiet g c = true) : upLacks g c.pos = true := by
  unfold Quiet at h
  split at h
  · exact up_of_pos h
  · exact h

/-! ## Positions in one expression -/

/-- a position in the expression -/
inductive At (root : List Node) : List (List Node) → Prop
  | nil : At root []
  | top {l : List Node} : l <:+ root → At root [l]
  | sub {l : List Node} {n : Node} {ns : List Node} {up : List (List Node)} : At root ((n :: ns) :: up) → l <:+ n.body → At root (l :: (n :: ns) :: up)

theorem At.up {root l : List Node} {up : List (List Node)} (h : At root (l :: up)) : At root up := by
  cases h with
  | top _ => exact .nil
  | sub h _ => exact h

theorem At.tail {root : List Node} {n : Node} {ns : List Node} {up : List (List Node)} (h : At root ((n :: ns) :: up)) : At root (ns :: up) := by
  cases h with
  | top h => exact .top ((List.suffix_cons n ns).trans h)
  | sub h h2 => exact .sub h ((List.suffix_cons n ns).trans h2)

theorem suffix_inj {α : Type} {l l' b : List α} (h : l <:+ b) (h' : l' <:+ b) (e : l.length = l'.length) : l = l' := by
  obtain ⟨p, rfl⟩ := h
  obtain ⟨p', e'⟩ := h'
  exact (List.append_inj' e' e.symm).2.symm

theorem at_inj {root : List Node} {pos : List (List Node)} (h : At root pos) : ∀ {pos'}, At root pos' → addr pos = addr pos' → pos = pos' := by
  induction h with
  | nil =>
    intro pos' h' e
    cases pos' with
    | nil => rfl
    | cons => simp [addr] at e
  | top hl =>
    intro pos' h' e
    cases h' with
    | nil => simp [addr] at e
    | top hl' =>
      simp only [addr, List.map_cons, List.map_nil, List.cons.injEq, and_true] at e
      rw [suffix_inj hl hl' e]
    | sub _ _ => simp [addr] at e
  | sub h hl ih =>
    intro pos' h' e
    cases h' with
    | nil => simp [addr] at e
    | top hl' => simp [addr] at e
    | sub h2 hl' =>
      have e2 := ih h2 (by simp only [addr, List.map_cons, List.cons.injEq] at e ⊢; exact e.2)
      simp only [List.cons.injEq] at e2
      obtain ⟨⟨rfl, rfl⟩, rfl⟩ := e2
      simp only [addr, List.map_cons, List.cons.injEq] at e
      rw [suffix_inj hl hl' e.1]

/-- only the fields of the node itself change, and not those of an `x?` with the group inside -/
def Wrote (g : Grp) (pos : List (List Node)) (m m' : Mem) : Prop :=
  ∀ a, m'.vars a = m.vars a ∨ ∃ n ns up, pos = (n :: ns) :: up ∧ a = addr pos ∧ exitG g n = true

theorem wrote_same {g : Grp} {pos : List (List Node)} {m m' : Mem} (h : m'.vars = m.vars) : Wrote g pos m m' := fun a => Or.inl (by rw [h])

theorem wrote_set {g : Grp} {n : Node} {ns : List Node} {up : List (List Node)} {m : Mem} {v : Vars} (h : exitG g n = true) :
    Wrote g ((n :: ns) :: up) m (m.set (addr ((n :: ns) :: up)) v) := by
  intro a
  by_cases ha : a = addr ((n :: ns) :: up)
  · exact Or.inr ⟨n, ns, up, rfl, ha, h⟩
  · left; simp [Mem.set, ha]

theorem zero_wrote {root : List Node} {g : Grp} {pos : List (List Node)} {m m' : Mem} (hp : At root pos) (hw : Wrote g pos m m') :
    ∀ {pos'}, At root pos' → Zeros g m pos' → Zeros g m' pos'
  | [], _, _ => trivial
  | [] :: up, h, hz => zero_wrote (pos' := up) hp hw h.up hz
  | (n :: ns) :: up, h, hz => by
    refine ⟨fun he => ?_, zero_wrote (pos' := up) hp hw h.up hz.2⟩
    rcases hw (addr ((n :: ns) :: up)) with e | ⟨n', ns', up', rfl, e, he'⟩
    · rw [e]; exact hz.1 he
    · have := at_inj h hp e
      simp only [List.cons.injEq] at this
      rw [this.1.1, he'] at he
      cases he

theorem place_close {m : Mem} {j : Nat} {s q : Int} {g : Grp} (h : g.hasNum j = false) : (m.close j s q).place g = m.place g := by
  cases g with
  | num i =>
    have hij : i ≠ j := by simpa [Grp.hasNum] using h
    unfold Mem.close Mem.place
    dsimp only
    congr 1
    · repeat' split
      all_goals simp [upd, hij]
    · split <;> simp [upd, hij]
  | name i => rfl
  | mark b =>
    have hj : j ≠ 0 := by simpa [Grp.hasNum] using h
    have hj' : ¬ (0 = j) := fun e => hj e.symm
    cases b
    · unfold Mem.close Mem.place
      dsimp only
      congr 1
      repeat' split
      all_goals simp [upd, hj']
    · unfold Mem.close Mem.place
      dsimp only
      congr 1
      split <;> simp [upd, hj']

theorem place_closeNamed {m : Mem} {j : Nat} {s q : Int} {g : Grp} (h : g ≠ .name j) : (m.closeNamed j s q).place g = m.place g := by
  cases g with
  | num i => rfl
  | mark b => cases b <;> rfl
  | name i =>
    have hij : i ≠ j := fun e => h (by rw [e])
    simp [Mem.closeNamed, Mem.place, upd, hij]

theorem place_mark {m : Mem} {q : Int} {k : Meta} {g : Grp} (h : g ≠ .num 0) (hk : g.isMark k = false) : (markMeta m q k).place g = m.place g := by
  cases g with
  | name i => cases k <;> rfl
  | mark b => cases b <;> cases k <;> first | rfl | exact absurd hk (by simp [Grp.isMark])
  | num i =>
    have hi : i ≠ 0 := fun e => h (by rw [e])
    cases k <;> simp [markMeta, Mem.place, upd, hi]

/-- a round keeps the group, and stays where it cannot be closed -/
def KeepR (g : Grp) (pos : List (List Node)) (m : Mem) (r : Res × Mem) : Prop :=
  r.2.place g = m.place g ∧ Wrote g pos m r.2 ∧ match r.1 with
    | .goto c => Quiet g c = true
    | .call c _ _ => Quiet g c = true
    | _ => True

theorem keep_tested {g : Grp} {pos : List (List Node)} {m m' : Mem} {ns : List Node} {up : List (List Node)} (ck : Chk) (hm : m'.place g = m.place g)
    (hv : m'.vars = m.vars) (h1 : lacksG g ns = true) (h2 : upLacks g up = true) : KeepR g pos m (tested ns up ck, m') := by
  refine ⟨hm, wrote_same hv, ?_⟩
  cases ck with
  | no => trivial
  | oob => trivial
  | yes q => show Quiet g ⟨ns :: up, true, q⟩ = true; simp [Quiet, posLacks, h1, h2]

theorem keep_NM {g : Grp} {n : Node} {ns : List Node} {up : List (List Node)} {left : Bool} {q s e : Int} {b : List Node} {lzy : Bool} {m : Mem}
    (hx : exitG g n = lacksG g b) (hl : left = true → lacksG g b = true) (hz : Zeros g m ((n :: ns) :: up)) (hns : lacksG g ns = true)
    (hup : upLacks g up = true) (hup' : upLacks g ((n :: ns) :: up) = true) : KeepR g ((n :: ns) :: up) m (execRangeNM ns up n s e b lzy left q m) := by
  have hnx : ∀ q, Quiet g ⟨ns :: up, true, q⟩ = true := fun q => by simp [Quiet, posLacks, hns, hup]
  cases hb : lacksG g b with
  | true =>
    have hin : ∀ q, Quiet g ⟨b :: (n :: ns) :: up, true, q⟩ = true := fun q => by simp [Quiet, posLacks, hb, hup']
    have hw : ∀ v, Wrote g ((n :: ns) :: up) m (m.set (addr ((n :: ns) :: up)) v) := fun v => wrote_set (by rw [hx, hb])
    simp only [execRangeNM]
    split
    · split
      · exact ⟨rfl, hw _, hnx q⟩
      · split
        · exact ⟨rfl, hw _, hnx q⟩
        · exact ⟨rfl, hw _, hin q⟩
    · exact ⟨rfl, hw _, hin q⟩
  | false =>
    have hl' : left = false := by
      cases left with
      | false => rfl
      | true => rw [hl rfl] at hb; cases hb
    subst hl'
    have := hz.1 (by rw [hx, hb])
    simp only [execRangeNM, initVars, this.1, this.2, if_true, Bool.false_eq_true, if_false, set_self]
    exact ⟨rfl, wrote_same rfl, hnx q⟩

theorem keep_exec {env : Env} {g : Grp} (hg : g ≠ .num 0) {n : Node} {ns : List Node} {up : List (List Node)} {left : Bool} {q : Int} {m : Mem}
    (h : Quiet g ⟨(n :: ns) :: up, left, q⟩ = true) (hz : Zeros g m ((n :: ns) :: up)) :
    KeepR g ((n :: ns) :: up) m (execNode env n ns up left q m) := by
  have hu := up_of_quiet h
  rw [upLacks, Bool.and_eq_true, Bool.and_eq_true] at hu
  obtain ⟨⟨he, hns⟩, hup⟩ := hu
  have hup' : upLacks g ((n :: ns) :: up) = true := up_of_quiet h
  have hnx : ∀ q, Quiet g ⟨ns :: up, true, q⟩ = true := fun q => by simp [Quiet, posLacks, hns, hup]
  have hin : ∀ b q, lacksG g b = true → Quiet g ⟨b :: (n :: ns) :: up, true, q⟩ = true := fun b q hb => by simp [Quiet, posLacks, hb, hup']
  have hleft : left = true → lacksGN g n = true := by
    intro e
    subst e
    simp only [Quiet, if_true, posLacks, lacksG, Bool.and_eq_true] at h
    exact h.1.1
  cases n with
  | empty => exact ⟨rfl, wrote_same rfl, hnx q⟩
  | msym k => exact keep_tested _ (place_mark hg (by simpa [exitG, quest] using he)) (vars_mark _ _ _) hns hup
  | symb c => exact keep_tested _ rfl rfl hns hup
  | word w => exact keep_tested _ rfl rfl hns hup
  | enum w => exact keep_tested _ rfl rfl hns hup
  | nenum w => exact keep_tested _ rfl rfl hns hup
  | bkTrace k => exact keep_tested _ rfl rfl hns hup
  | bkTraceN k => exact keep_tested _ rfl rfl hns hup
  | bkTraceName k => exact keep_tested _ rfl rfl hns hup
  | bkTraceNName k => exact keep_tested _ rfl rfl hns hup
  | bkBrack k => exact keep_tested _ rfl rfl hns hup
  | bkBrackName k => exact keep_tested _ rfl rfl hns hup
  | brackets idx b =>
    have he : notNum g idx = true := by simpa [exitG, quest] using he
    cases left with
    | true =>
      have := hleft rfl
      rw [lacksGN, Bool.and_eq_true] at this
      exact ⟨rfl, wrote_set he, hin b q this.2⟩
    | false =>
      cases idx with
      | none => exact ⟨rfl, wrote_same rfl, hnx q⟩
      | some j =>
        refine ⟨place_close ?_, wrote_same rfl, hnx q⟩
        simpa [notNum] using he
  | named idx b =>
    have he : notName g idx = true := by simpa [exitG, quest] using he
    cases left with
    | true =>
      have := hleft rfl
      rw [lacksGN, Bool.and_eq_true] at this
      exact ⟨rfl, wrote_set he, hin b q this.2⟩
    | false =>
      cases idx with
      | none => exact ⟨rfl, wrote_same rfl, hnx q⟩
      | some j =>
        refine ⟨place_closeNamed ?_, wrote_same rfl, hnx q⟩
        simpa [notName] using he
  | ahead b =>
    cases left with
    | true => exact ⟨rfl, wrote_same rfl, hin b q (by have := hleft rfl; rw [lacksGN] at this; exact this)⟩
    | false => exact ⟨rfl, wrote_same rfl, trivial⟩
  | nahead b =>
    cases left with
    | true => exact ⟨rfl, wrote_same rfl, hin b q (by have := hleft rfl; rw [lacksGN] at this; exact this)⟩
    | false => exact ⟨rfl, wrote_same rfl, trivial⟩
  | behind k b =>
    cases left with
    | true =>
      simp only [execNode, if_true]
      split
      · exact ⟨rfl, wrote_same rfl, trivial⟩
      · exact ⟨rfl, wrote_same rfl, hin b _ (by have := hleft rfl; rw [lacksGN] at this; exact this)⟩
    | false => exact ⟨rfl, wrote_same rfl, trivial⟩
  | nbehind k b =>
    cases left with
    | true =>
      simp only [execNode, if_true]
      split
      · exact ⟨rfl, wrote_same rfl, hin b _ (by have := hleft rfl; rw [lacksGN] at this; exact this)⟩
      · exact ⟨rfl, wrote_same rfl, hnx q⟩
    | false => exact ⟨rfl, wrote_same rfl, trivial⟩
  | or b =>
    cases left with
    | true => exact ⟨rfl, wrote_same rfl, hin b q (by have := hleft rfl; rw [lacksGN] at this; exact this)⟩
    | false => exact ⟨rfl, wrote_same rfl, by show Quiet g ⟨up, false, q⟩ = true; simp [Quiet, hup]⟩
  | rangeN s b =>
    have he : exitG g (.rangeN s b) = true := by simpa [quest] using he
    have hb := hin b q (by rw [exitG] at he; exact he)
    simp only [execNode, execRangeN]
    split
    · exact ⟨rfl, wrote_set he, hnx q⟩
    · split
      · exact ⟨rfl, wrote_set he, hb⟩
      · exact ⟨rfl, wrote_set he, hb⟩
  | ngRangeN s b =>
    have he : exitG g (.ngRangeN s b) = true := by simpa [quest] using he
    have hb := hin b q (by rw [exitG] at he; exact he)
    simp only [execNode, execNGRangeN]
    split
    · exact ⟨rfl, wrote_set he, hnx q⟩
    · split
      · exact ⟨rfl, wrote_set he, hnx q⟩
      · exact ⟨rfl, wrote_set he, hb⟩
  | rangeNM s e b => exact keep_NM rfl (fun e => by have := hleft e; rw [lacksGN] at this; exact this) hz hns hup hup'
  | ngRangeNM s e b => exact keep_NM rfl (fun e => by have := hleft e; rw [lacksGN] at this; exact this) hz hns hup hup'

/-! ## Whole runs -/

/-- what may be resumed later: it does not close the group, and going through the body again is an action of lazy repetitions only -/
structure RestOk (g : Grp) (c : Cfg) (a : Act) : Prop where
  up : upLacks g c.pos = true
  own : ∀ n ns up, c.pos = (n :: ns) :: up → exitG g n = true ∨ a = .yes ∨ a = .no
  body : ∀ n ns up, c.pos = (n :: ns) :: up → (a = .ngRangeN2 ∨ a = .ngRangeNM2) → lacksG g n.body = true

theorem keep_resume {g : Grp} {a : Act} {c : Cfg} {m : Mem} (hr : RestOk g c a) : KeepR g c.pos m (resume a c m) := by
  obtain ⟨h, hx, ha⟩ := hr
  match hc : c.pos with
  | [] => simp only [resume, hc]; exact ⟨rfl, wrote_same rfl, trivial⟩
  | [] :: up => simp only [resume, hc]; exact ⟨rfl, wrote_same rfl, trivial⟩
  | (n :: ns) :: up =>
    have hup' : upLacks g ((n :: ns) :: up) = true := by rw [← hc]; exact h
    rw [hc, upLacks, Bool.and_eq_true, Bool.and_eq_true] at h
    obtain ⟨⟨-, hns⟩, hup⟩ := h
    have hnx : ∀ q, Quiet g ⟨ns :: up, true, q⟩ = true := fun q => by simp [Quiet, posLacks, hns, hup]
    have hin : ∀ b q, lacksG g b = true → Quiet g ⟨b :: (n :: ns) :: up, true, q⟩ = true := fun b q hb => by simp [Quiet, posLacks, hb, hup']
    have hx' := hx n ns up hc
    simp only [resume, hc]
    cases a with
    | no => exact ⟨rfl, wrote_same rfl, trivial⟩
    | yes => exact ⟨rfl, wrote_same rfl, trivial⟩
    | brk => exact ⟨rfl, wrote_same rfl, hnx _⟩
    | rangeN2 => exact ⟨rfl, wrote_same rfl, hnx _⟩
    | rangeNM2 => exact ⟨rfl, wrote_same rfl, hnx _⟩
    | rangeNM3 => exact ⟨rfl, wrote_set (by simpa using hx'), trivial⟩
    | ngRangeN2 =>
      refine ⟨?_, ?_, hin _ _ (ha n ns up hc (Or.inl rfl))⟩
      · dsimp only
        split <;> rfl
      · dsimp only
        split
        · exact wrote_same rfl
        · exact wrote_set (by simpa using hx')
    | ngRangeNM2 => exact ⟨rfl, wrote_same rfl, hin _ _ (ha n ns up hc (Or.inr rfl))⟩
    | ngRangeNM3 => exact ⟨rfl, wrote_set (by simpa using hx'), trivial⟩

/-- where a round goes from the position `cur` -/
def Next (root : List Node) (cur : List (List Node)) (c : Cfg) : Prop :=
  At root c.pos ∧ ((c.left = true ∧ ∃ l, c.pos = l :: cur ∨ c.pos = l :: cur.tail) ∨ c.pos = cur.tail)

/-- where a round goes is in the expression -/
def GoesAt (root : List Node) (cur : List (List Node)) (r : Res) : Prop := match r with
  | .goto c => Next root cur c
  | .call c _ _ => Next root cur c
  | _ => True

theorem next_tail {root ns l : List Node} {up : List (List Node)} (h : At root (ns :: up)) (q : Int) : Next root (l :: up) ⟨ns :: up, true, q⟩ :=
  ⟨h, Or.inl ⟨rfl, ns, Or.inr rfl⟩⟩

theorem next_body {root b : List Node} {cur : List (List Node)} (h : At root (b :: cur)) (q : Int) : Next root cur ⟨b :: cur, true, q⟩ :=
  ⟨h, Or.inl ⟨rfl, b, Or.inl rfl⟩⟩

theorem tested_at {root ns l : List Node} {up : List (List Node)} (h : At root (ns :: up)) (ck : Chk) : GoesAt root (l :: up) (tested ns up ck) := by
  cases ck with
  | no => trivial
  | oob => trivial
  | yes q => exact next_tail h q

theorem exec_at {env : Env} {root : List Node} {c : Cfg} {m : Mem} (h : At root c.pos) : GoesAt root c.pos (exec env c m).1 := by
  obtain ⟨pos, left, q⟩ := c
  match pos, h with
  | [], _ => trivial
  | [] :: up, h => exact ⟨h.up, Or.inr rfl⟩
  | (n :: ns) :: up, h =>
    have ht := h.tail
    have hb : At root (n.body :: (n :: ns) :: up) := .sub h (List.suffix_refl _)
    show GoesAt root ((n :: ns) :: up) (execNode env n ns up left q m).1
    cases n with
    | empty => exact next_tail ht _
    | msym _ | symb _ | word _ | enum _ | nenum _ | bkTrace _ | bkTraceN _ | bkTraceName _ | bkTraceNName _ | bkBrack _ | bkBrackName _ => exact tested_at ht _
    | brackets idx b | named idx b =>
      simp only [execNode]
      split
      · exact next_body hb _
      · split <;> exact next_tail ht _
    | ahead b | nahead b =>
      simp only [execNode]
      split
      · exact next_body hb _
      · trivial
    | behind k b =>
      simp only [execNode]
      split
      · split
        · trivial
        · exact next_body hb _
      · trivial
    | nbehind k b =>
      simp only [execNode]
      split
      · split
        · exact next_body hb _
        · exact next_tail ht _
      · trivial
    | or b =>
      simp only [execNode]
      split
      · exact next_body hb _
      · exact ⟨h.up, Or.inr rfl⟩
    | rangeN s b =>
      simp only [execNode, execRangeN]
      repeat' split
      all_goals first | exact next_body hb _ | exact next_tail ht _
    | ngRangeN s b =>
      simp only [execNode, execNGRangeN]
      repeat' split
      all_goals first | exact next_body hb _ | exact next_tail ht _
    | rangeNM s e b | ngRangeNM s e b =>
      simp only [execNode, execRangeNM]
      repeat' split
      all_goals first | exact next_body hb _ | exact next_tail ht _

theorem resume_at {root : List Node} {a : Act} {c : Cfg} {m : Mem} (h : At root c.pos) : GoesAt root c.pos (resume a c m).1 := by
  obtain ⟨pos, left, q⟩ := c
  match pos, h with
  | [], _ => trivial
  | [] :: up, h => trivial
  | (n :: ns) :: up, h =>
    have ht := h.tail
    have hb : At root (n.body :: (n :: ns) :: up) := .sub h (List.suffix_refl _)
    cases a with
    | no | yes | rangeNM3 | ngRangeNM3 => trivial
    | brk | rangeN2 | rangeNM2 => exact next_tail ht _
    | ngRangeN2 | ngRangeNM2 => exact next_body hb _

/-- an element of the stack -/
structure RestAt (root : List Node) (g : Grp) (m : Mem) (c : Cfg) : Prop where
  at_ : At root c.pos
  zero : Zeros g m c.pos

structure KeptOk (root : List Node) (g : Grp) (st : State) : Prop where
  here : st.act = none → Quiet g st.c = true
  res : ∀ a, st.act = some a → RestOk g st.c a
  cur : RestAt root g st.m st.c
  stack : ∀ x ∈ st.stack, RestOk g x.c x.t ∧ RestOk g x.c x.f ∧ RestAt root g st.m x.c

theorem elem_plain {g : Grp} {c : Cfg} {a : Act} (h : upLacks g c.pos = true) (h3 : ∀ n ns up, c.pos = (n :: ns) :: up → exitG g n = true ∨ a = .yes ∨ a = .no)
    (h1 : a ≠ .ngRangeN2) (h2 : a ≠ .ngRangeNM2) : RestOk g c a :=
  ⟨h, h3, fun _ _ _ _ hh => by rcases hh with hh | hh <;> contradiction⟩

/-- the actions a call leaves on the stack -/
theorem exec_elems {env : Env} {g : Grp} {n : Node} {ns : List Node} {up : List (List Node)} {left : Bool} {q : Int} {m : Mem}
    (hq : Quiet g ⟨(n :: ns) :: up, left, q⟩ = true) (hz : Zeros g m ((n :: ns) :: up)) {c' : Cfg} {t f : Act}
    (hr : (execNode env n ns up left q m).1 = .call c' t f) :
    RestOk g ⟨(n :: ns) :: up, left, q⟩ t ∧ RestOk g ⟨(n :: ns) :: up, left, q⟩ f := by
  have h : upLacks g ((n :: ns) :: up) = true := up_of_quiet hq
  have key : (t ≠ .ngRangeN2 ∧ t ≠ .ngRangeNM2) ∧ ((f ≠ .ngRangeN2 ∧ f ≠ .ngRangeNM2) ∨ lacksG g n.body = true) ∧
      (exitG g n = true ∨ t = .yes ∧ f = .no) := by
    have hx := h
    rw [upLacks, Bool.and_eq_true, Bool.and_eq_true] at hx
    have he := hx.1.1
    have hNM : ∀ s e b lzy, (n = .rangeNM s e b ∨ n = .ngRangeNM s e b) → (execRangeNM ns up n s e b lzy left q m).1 = .call c' t f →
        (t ≠ .ngRangeN2 ∧ t ≠ .ngRangeNM2) ∧ ((f ≠ .ngRangeN2 ∧ f ≠ .ngRangeNM2) ∨ lacksG g n.body = true) ∧ (exitG g n = true ∨ t = .yes ∧ f = .no) := by
      intro s e b lzy hn hr
      have ex : exitG g n = lacksG g b := by rcases hn with rfl | rfl <;> rfl
      have el : lacksGN g n = lacksG g b := by rcases hn with rfl | rfl <;> rw [lacksGN]
      have eb : n.body = b := by rcases hn with rfl | rfl <;> rfl
      cases hb : lacksG g b with
      | true =>
        refine ⟨?_, Or.inr (by rw [eb]; exact hb), Or.inl (by rw [ex]; exact hb)⟩
        simp only [execRangeNM] at hr
        repeat' split at hr
        all_goals first | cases hr; done | (simp only [Res.call.injEq] at hr; obtain ⟨-, rfl, rfl⟩ := hr; simp)
      | false =>
        have hl' : left = false := by
          cases left with
          | false => rfl
          | true =>
            simp only [Quiet, if_true, posLacks, lacksG, Bool.and_eq_true] at hq
            rw [el, hb] at hq
            cases hq.1.1
        subst hl'
        have := hz.1 (by rw [ex, hb])
        simp only [execRangeNM, initVars, this.1, this.2, if_true, Bool.false_eq_true, if_false, Res.call.injEq] at hr
        obtain ⟨-, rfl, rfl⟩ := hr
        simp
    cases n with
    | rangeN s b =>
      have he : exitG g (.rangeN s b) = true := by simpa [quest] using he
      simp only [execNode, execRangeN] at hr
      repeat' split at hr
      all_goals first | cases hr; done | (simp only [Res.call.injEq] at hr; obtain ⟨-, rfl, rfl⟩ := hr; simp [he])
    | ngRangeN s b =>
      have he : exitG g (.ngRangeN s b) = true := by simpa [quest] using he
      exact ⟨by
        simp only [execNode, execNGRangeN] at hr
        repeat' split at hr
        all_goals first | cases hr; done | (simp only [Res.call.injEq] at hr; obtain ⟨-, rfl, rfl⟩ := hr; simp), Or.inr he, Or.inl he⟩
    | rangeNM s e b => exact hNM s e b false (Or.inl rfl) hr
    | ngRangeNM s e b => exact hNM s e b true (Or.inr rfl) hr
    | brackets idx b =>
      simp only [execNode] at hr
      repeat' split at hr
      all_goals cases hr
    | named idx b =>
      simp only [execNode] at hr
      repeat' split at hr
      all_goals cases hr
    | ahead b | nahead b | behind k b | nbehind k b | or b =>
      simp only [execNode] at hr
      repeat' split at hr
      all_goals first | cases hr; done | (simp only [Res.call.injEq] at hr; obtain ⟨-, rfl, rfl⟩ := hr; simp [exitG])
    | empty => cases hr
    | msym k => simp only [execNode, tested] at hr; split at hr <;> cases hr
    | symb k => simp only [execNode, tested] at hr; split at hr <;> cases hr
    | word k => simp only [execNode, tested] at hr; split at hr <;> cases hr
    | enum k => simp only [execNode, tested] at hr; split at hr <;> cases hr
    | nenum k => simp only [execNode, tested] at hr; split at hr <;> cases hr
    | bkTrace k => simp only [execNode, tested] at hr; split at hr <;> cases hr
    | bkTraceN k => simp only [execNode, tested] at hr; split at hr <;> cases hr
    | bkTraceName k => simp only [execNode, tested] at hr; split at hr <;> cases hr
    | bkTraceNName k => simp only [execNode, tested] at hr; split at hr <;> cases hr
    | bkBrack k => simp only [execNode, tested] at hr; split at hr <;> cases hr
    | bkBrackName k => simp only [execNode, tested] at hr; split at hr <;> cases hr
  obtain ⟨k1, k2, k3⟩ := key
  have own1 : ∀ n' ns' up', (⟨(n :: ns) :: up, left, q⟩ : Cfg).pos = (n' :: ns') :: up' → exitG g n' = true ∨ t = .yes ∨ t = .no := by
    intro n' ns' up' e; cases e; exact k3.imp id fun x => Or.inl x.1
  have own2 : ∀ n' ns' up', (⟨(n :: ns) :: up, left, q⟩ : Cfg).pos = (n' :: ns') :: up' → exitG g n' = true ∨ f = .yes ∨ f = .no := by
    intro n' ns' up' e; cases e; exact k3.imp id fun x => Or.inr x.2
  refine ⟨elem_plain h own1 k1.1 k1.2, ?_⟩
  rcases k2 with hf | hb
  · exact elem_plain h own2 hf.1 hf.2
  · exact ⟨h, own2, fun n' ns' up' e _ => by cases e; exact hb⟩

theorem resume_elems {g : Grp} {a : Act} {c : Cfg} {m : Mem} (ho : RestOk g c a) {c' : Cfg} {t f : Act} (hr : (resume a c m).1 = .call c' t f) :
    RestOk g c t ∧ RestOk g c f := by
  have key : (t ≠ .ngRangeN2 ∧ t ≠ .ngRangeNM2) ∧ (f ≠ .ngRangeN2 ∧ f ≠ .ngRangeNM2) ∧ a ≠ .yes ∧ a ≠ .no := by
    match hc : c.pos with
    | [] => simp only [resume, hc] at hr; cases hr
    | [] :: up => simp only [resume, hc] at hr; cases hr
    | (n :: ns) :: up =>
      simp only [resume, hc] at hr
      cases a <;> first | cases hr; done | (simp only [Res.call.injEq] at hr; obtain ⟨-, rfl, rfl⟩ := hr; simp)
  obtain ⟨k1, k2, k3, k4⟩ := key
  have own : ∀ n ns up, c.pos = (n :: ns) :: up → exitG g n = true := fun n ns up e => (ho.own n ns up e).resolve_right (by rintro (x | x) <;> contradiction)
  exact ⟨elem_plain ho.up (fun n ns up e => Or.inl (own n ns up e)) k1.1 k1.2, elem_plain ho.up (fun n ns up e => Or.inl (own n ns up e)) k2.1 k2.2⟩

/-- the elements of the stack -/
def StackOk (root : List Node) (g : Grp) (m : Mem) (S : List Elem) : Prop := ∀ x ∈ S, RestOk g x.c x.t ∧ RestOk g x.c x.f ∧ RestAt root g m x.c

theorem pop_keep {root : List Node} {g : Grp} {b : Bool} {m : Mem} {S : List Elem} (h : StackOk root g m S) :
    match pop b m S with
    | .inl st => KeptOk root g st ∧ st.m = m
    | .inr r => r.2 = m := by
  cases S with
  | nil => rfl
  | cons x xs =>
    have hx := h x (by simp)
    refine ⟨⟨fun e => (by cases e), fun a e => ?_, hx.2.2, fun y hy => h y (List.mem_cons_of_mem _ hy)⟩, rfl⟩
    simp only [Option.some.injEq] at e
    subst e
    cases b
    · exact hx.2.1
    · exact hx.1

/-- where a round goes, an `x?` around has its counters at 0 -/
theorem zero_of_quiet {g : Grp} {m : Mem} {l : List Node} {up : List (List Node)} (hl : lacksG g l = true) (hz : Zeros g m up) : Zeros g m (l :: up) := by
  cases l with
  | nil => exact hz
  | cons n ns =>
    refine ⟨fun e => ?_, hz⟩
    simp only [lacksG, Bool.and_eq_true] at hl
    rw [exit_of_lacks hl.1] at e
    cases e

theorem zero_next {root : List Node} {g : Grp} {m : Mem} {cur : List (List Node)} {c : Cfg} (hz : Zeros g m cur) (hn : Next root cur c)
    (hq : Quiet g c = true) : Zeros g m c.pos := by
  have ht : Zeros g m cur.tail := by
    match cur, hz with
    | [], _ => trivial
    | [] :: up, hz => exact hz
    | (n :: ns) :: up, hz => exact hz.2
  obtain ⟨pos, left, q⟩ := c
  rcases hn.2 with ⟨hl, l, h⟩ | h
  · dsimp only at hl
    subst hl
    rcases h with h | h
    · dsimp only at h
      subst h
      simp only [Quiet, if_true, posLacks, Bool.and_eq_true] at hq
      exact zero_of_quiet hq.1 hz
    · dsimp only at h
      subst h
      simp only [Quiet, if_true, posLacks, Bool.and_eq_true] at hq
      exact zero_of_quiet hq.1 ht
  · dsimp only at h
    subst h
    exact ht

theorem exec_keep {env : Env} {g : Grp} (hg : g ≠ .num 0) {c : Cfg} {m : Mem} (h : Quiet g c = true) (hz : Zeros g m c.pos) : KeepR g c.pos m (exec env c m) ∧
    ∀ c' t f, (exec env c m).1 = .call c' t f → RestOk g c t ∧ RestOk g c f := by
  obtain ⟨pos, left, q⟩ := c
  match pos, hz with
  | [], _ => exact ⟨⟨rfl, wrote_same rfl, trivial⟩, fun _ _ _ e => by cases e⟩
  | [] :: up, hz =>
    refine ⟨⟨rfl, wrote_same rfl, ?_⟩, fun _ _ _ e => by cases e⟩
    have := up_of_quiet h
    rw [upLacks] at this
    show Quiet g ⟨up, false, q⟩ = true
    simp [Quiet, this]
  | (n :: ns) :: up, hz => exact ⟨keep_exec hg h hz, fun _ _ _ e => exec_elems h hz e⟩

theorem after_keep {root : List Node} {g : Grp} {c : Cfg} {S : List Elem} {m : Mem} {r : Res × Mem} (hk : KeepR g c.pos m r) (hc : RestAt root g m c)
    (hn : GoesAt root c.pos r.1)
    (he : ∀ c' t f, r.1 = .call c' t f → RestOk g c t ∧ RestOk g c f) (hS : StackOk root g m S) :
    match after c S r with
    | .inl st => KeptOk root g st ∧ st.m.place g = m.place g
    | .inr x => x.2.place g = m.place g := by
  obtain ⟨r, m'⟩ := r
  obtain ⟨h1, h3, h2⟩ := hk
  dsimp only at h1 h2 h3 hn
  have hS' : StackOk root g m' S := fun x hx => by
    obtain ⟨a, b, d⟩ := hS x hx
    exact ⟨a, b, d.at_, zero_wrote hc.at_ h3 d.at_ d.zero⟩
  have hz' : Zeros g m' c.pos := zero_wrote hc.at_ h3 hc.at_ hc.zero
  cases r with
  | fail =>
    have := pop_keep (b := false) hS'
    show match pop false m' S with | .inl st => _ | .inr x => _
    revert this
    cases pop false m' S with
    | inl st => rintro ⟨a, b⟩; exact ⟨a, by rw [b]; exact h1⟩
    | inr x => intro b; dsimp only at b ⊢; rw [b]; exact h1
  | succ =>
    have := pop_keep (b := true) hS'
    show match pop true m' S with | .inl st => _ | .inr x => _
    revert this
    cases pop true m' S with
    | inl st => rintro ⟨a, b⟩; exact ⟨a, by rw [b]; exact h1⟩
    | inr x => intro b; dsimp only at b ⊢; rw [b]; exact h1
  | goto c' => exact ⟨⟨fun _ => h2, fun _ e => (by cases e), ⟨hn.1, zero_next hz' hn h2⟩, hS'⟩, h1⟩
  | call c' t f =>
    refine ⟨⟨fun _ => h2, fun _ e => (by cases e), ⟨hn.1, zero_next hz' hn h2⟩, fun x hx => ?_⟩, h1⟩
    rcases List.mem_cons.1 hx with rfl | hx
    · exact ⟨(he c' t f rfl).1, (he c' t f rfl).2, hc.at_, hz'⟩
    · exact hS' x hx
  | oob => exact h1

theorem step_keep {env : Env} {root : List Node} {g : Grp} (hg : g ≠ .num 0) {st : State} (h : KeptOk root g st) :
    match step env st with
    | .inl st' => KeptOk root g st' ∧ st'.m.place g = st.m.place g
    | .inr x => x.2.place g = st.m.place g := by
  obtain ⟨c, act, m, S⟩ := st
  cases act with
  | none =>
    have hk := exec_keep (env := env) hg (m := m) (h.here rfl) h.cur.zero
    exact after_keep (c := c) hk.1 h.cur (exec_at h.cur.at_) hk.2 h.stack
  | some a =>
    have he := h.res a rfl
    exact after_keep (c := c) (keep_resume he) h.cur (resume_at h.cur.at_) (fun _ _ _ e => resume_elems he e) h.stack

/-- a run from where the group cannot be closed leaves it as it was -/
theorem run_keep {env : Env} {root : List Node} {g : Grp} (hg : g ≠ .num 0) (fuel : Nat) : ∀ {st : State}, KeptOk root g st → ∀ {r : End × Mem},
    run env fuel st = some r → r.2.place g = st.m.place g := by
  induction fuel with
  | zero => intro st _ r h; cases h
  | succ fuel ih =>
    intro st hs r h
    have hk := step_keep (env := env) hg hs
    rw [run_succ] at h
    revert hk h
    cases step env st with
    | inr x => intro h hk; simp only [cont, Option.some.injEq] at h; subst h; exact hk
    | inl st' => rintro h ⟨hk1, hk2⟩; rw [← hk2]; exact ih hk1 h

/-! ## More on the stack does not matter -/

theorem pop_append {b : Bool} {m : Mem} (X S : List Elem) : pop b m (X ++ S) = match X with
    | [] => pop b m S
    | x :: xs => .inl ⟨x.c, some (if b then x.t else x.f), m, xs ++ S⟩ := by cases X <;> rfl

theorem run_below {env : Env} (fuel : Nat) : ∀ {c : Cfg} {act : Option Act} {m : Mem} {X : List Elem} {b : Bool} {m' : Mem} (S : List Elem),
    run env fuel ⟨c, act, m, X⟩ = some (.ret b, m') → ∃ k, ∀ f, run env (f + k) ⟨c, act, m, X ++ S⟩ = cont env f (pop b m' S) := by
  induction fuel with
  | zero => intro c act m X b m' S h; cases h
  | succ fuel ih =>
    intro c act m X b m' S h
    rw [run_succ] at h
    have key : ∀ r : Res × Mem, cont env fuel (after c X r) = some (.ret b, m') →
        ∃ k, ∀ f, cont env (f + k) (after c (X ++ S) r) = cont env f (pop b m' S) := by
      rintro ⟨r, m1⟩ h
      have hpop : ∀ b1, cont env fuel (pop b1 m1 X) = some (.ret b, m') → ∃ k, ∀ f, cont env (f + k) (pop b1 m1 (X ++ S)) = cont env f (pop b m' S) := by
        intro b1 h
        cases X with
        | nil =>
          simp only [pop, cont, Option.some.injEq, Prod.mk.injEq, End.ret.injEq] at h
          obtain ⟨rfl, rfl⟩ := h
          exact ⟨0, fun f => rfl⟩
        | cons x xs =>
          obtain ⟨k, hk⟩ := ih S (show run env fuel ⟨x.c, some (if b1 then x.t else x.f), m1, xs⟩ = _ from h)
          exact ⟨k, hk⟩
      cases r with
      | fail => exact hpop false h
      | succ => exact hpop true h
      | goto c' => exact ih S (show run env fuel ⟨c', none, m1, X⟩ = _ from h)
      | call c' t f => exact ih S (show run env fuel ⟨c', none, m1, ⟨c, t, f⟩ :: X⟩ = _ from h)
      | oob => cases h
    have hstep : ∃ r, step env ⟨c, act, m, X⟩ = after c X r ∧ step env ⟨c, act, m, X ++ S⟩ = after c (X ++ S) r := by
      cases act with
      | none => exact ⟨exec env c m, rfl, rfl⟩
      | some a => exact ⟨resume a c m, rfl, rfl⟩
    obtain ⟨r, e1, e2⟩ := hstep
    rw [e1] at h
    obtain ⟨k, hk⟩ := key r h
    exact ⟨k + 1, fun f => by rw [← Nat.add_assoc, run_succ, e2]; exact hk f⟩

/-- a run from where the group cannot be closed lands with the group as it was -/
theorem runs_keep {env : Env} {root : List Node} {g : Grp} (hg : g ≠ .num 0) {T : Addr → Prop} {sok : Sok} {Fin : Int → Mem → Prop} {Inv : Mem → Prop} {c : Cfg}
    {res : Option Int} (h : Runs env T sok Fin Inv c res) (hq : Quiet g c = true) (m : Mem) (S : List Elem) (hi : Inv m) (hc : RestAt root g m c) :
    Lands env ⟨c, none, m, S⟩ res.isSome S (fun m' => Post T sok Fin m res m' ∧ m'.place g = m.place g) := by
  obtain ⟨k, m', hp, hr⟩ := h m [] hi
  have h0 := hr 0
  rw [Nat.zero_add] at h0
  simp only [pop, cont] at h0
  obtain ⟨k', hk'⟩ := run_below k S h0
  have hkeep := run_keep (st := ⟨c, none, m, []⟩) hg k ⟨fun _ => hq, fun _ e => (by cases e), hc, fun _ hx => (by cases hx)⟩ h0
  exact ⟨k', m', ⟨hp, hkeep⟩, fun fuel => hk' fuel⟩

end Verif.RegExp
