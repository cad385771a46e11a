import Verif.RegExp.Quiet
import Mathlib.Logic.Encodable.Basic

/-!
# What the groups hold (for C80)

`caps g l p`: the ways a match of the chain `l` from `p` on may go, the preferred one first: where each ends, and from where to where it passed the
group `g` (`none`: it did not). For a group outside repetitions (other than `?`) and negative look-arounds. `CapL`: after a run over `l` that succeeded,
the group holds what the first way with a continuation says.
-/
namespace Verif.RegExp

/-- a mark -/
def Grp.mark? : Grp → Bool
  | .mark _ => true
  | .num _ | .name _ => false

/-- an end, and what the group holds (for a mark: where it is, and 1) -/
abbrev Way := Int × Option (Int × Int)

def outside (l : List Int) : List Way := l.map fun q => (q, none)

mutual
def caps (env : Env) (g : Grp) : List Node → Int → List Way
  | [], p => [(p, none)]
  | n :: ns, p => if isOr n then capsN env g n p ++ caps env g ns p
      else (capsN env g n p).flatMap fun v => (caps env g ns v.1).map fun w => (w.1, w.2.or v.2)
def capsN (env : Env) (g : Grp) : Node → Int → List Way
  | .brackets idx b, p => if notNum g idx then caps env g b p else (ends env b p).map fun q => (q, some (p, q))
  | .named idx b, p => if notName g idx then caps env g b p else (ends env b p).map fun q => (q, some (p, q))
  | .or b, p => caps env g b p
  | .ahead b, p => (caps env g b p).head?.toList.map fun v => (p, v.2)
  | .behind k b, p => if p - k < 0 then [] else (caps env g b (p - k)).head?.toList.map fun v => (p, v.2)
  | .rangeNM s e b, p => if s = 0 ∧ e = 1 then caps env g b p ++ [(p, none)] else outside (endsN env (.rangeNM s e b) p)
  | .ngRangeNM s e b, p => if s = 0 ∧ e = 1 then (p, none) :: caps env g b p else outside (endsN env (.ngRangeNM s e b) p)
  | .empty, p => outside (endsN env .empty p)
  | .msym k, p => if g.isMark k then (endsN env (.msym k) p).map fun q => (q, some (q, 1)) else outside (endsN env (.msym k) p)
  | .symb k, p => outside (endsN env (.symb k) p)
  | .word k, p => outside (endsN env (.word k) p)
  | .enum k, p => outside (endsN env (.enum k) p)
  | .nenum k, p => outside (endsN env (.nenum k) p)
  | .bkTrace k, p => outside (endsN env (.bkTrace k) p)
  | .bkTraceN k, p => outside (endsN env (.bkTraceN k) p)
  | .bkTraceName k, p => outside (endsN env (.bkTraceName k) p)
  | .bkTraceNName k, p => outside (endsN env (.bkTraceNName k) p)
  | .bkBrack k, p => outside (endsN env (.bkBrack k) p)
  | .bkBrackName k, p => outside (endsN env (.bkBrackName k) p)
  | .nahead b, p => outside (endsN env (.nahead b) p)
  | .nbehind k b, p => outside (endsN env (.nbehind k b) p)
  | .rangeN s b, p => outside (endsN env (.rangeN s b) p)
  | .ngRangeN s b, p => outside (endsN env (.ngRangeN s b) p)
end

mutual
/-- the group is written once at most, and not inside a repetition (other than `?`) or a negative look-around -/
def openG (g : Grp) : List Node → Bool
  | [] => true
  | n :: ns => openGN g n && openG g ns && (lacksGN g n || lacksG g ns)
def openGN (g : Grp) : Node → Bool
  | .brackets idx b => if notNum g idx then openG g b else !g.mark? && lacksG g b
  | .named idx b => if notName g idx then openG g b else lacksG g b
  | .or b | .ahead b | .behind _ b => openG g b
  | .rangeNM s e b | .ngRangeNM s e b => lacksG g b || decide (s = 0) && decide (e = 1) && openG g b
  | .nahead b | .nbehind _ b | .rangeN _ b | .ngRangeN _ b => lacksG g b
  | .empty | .msym _ | .symb _ | .word _ | .enum _ | .nenum _ | .bkTrace _ | .bkTraceN _ | .bkTraceName _ | .bkTraceNName _ | .bkBrack _
  | .bkBrackName _ => true
end

/-! ## The ends of the ways -/

theorem outside_fst (l : List Int) : (outside l).map Prod.fst = l := by simp [outside, Function.comp_def]

theorem look_fst {α : Type} {l : List (Int × Option α)} {k : List Int} (h : l.map Prod.fst = k) (p : Int) :
    (l.head?.toList.map fun v => (p, v.2)).map Prod.fst = if k = [] then [] else [p] := by
  subst h
  cases l <;> simp

theorem quest_ends (f : Int → List Int) (lzy : Bool) (p : Int) : (times f (0 : Int).toNat p).flatMap (rep f lzy ((1 : Int) - 0).toNat) =
    if lzy then p :: f p else f p ++ [p] := by
  have e : ∀ x : Int, rep f lzy 0 x = [x] := fun _ => rfl
  have e2 : (rep f lzy 0) = fun x => [x] := funext e
  simp only [Int.toNat_zero, times, Int.sub_zero, Int.toNat_one, rep, List.flatMap_cons, List.flatMap_nil, List.append_nil, e2]
  cases lzy <;> simp

mutual
theorem caps_fst (env : Env) (g : Grp) : ∀ (l : List Node) (p : Int), (caps env g l p).map Prod.fst = ends env l p
  | [], p => by rw [caps, ends]; rfl
  | n :: ns, p => by
    rw [caps, ends]
    cases isOr n with
    | true =>
      simp only [if_true, List.map_append]
      rw [capsN_fst env g n p, caps_fst env g ns p]
    | false =>
      simp only [Bool.false_eq_true, if_false]
      rw [← capsN_fst env g n p, List.map_flatMap, List.flatMap_map]
      refine flatMap_congr fun v _ => ?_
      rw [List.map_map, ← caps_fst env g ns v.1]
      rfl
theorem capsN_fst (env : Env) (g : Grp) : ∀ (n : Node) (p : Int), (capsN env g n p).map Prod.fst = endsN env n p
  | .brackets idx b, p => by
    rw [capsN, endsN]
    split
    · exact caps_fst env g b p
    · simp [Function.comp_def]
  | .named idx b, p => by
    rw [capsN, endsN]
    split
    · exact caps_fst env g b p
    · simp [Function.comp_def]
  | .or b, p => by rw [capsN, endsN]; exact caps_fst env g b p
  | .ahead b, p => by rw [capsN, endsN]; exact look_fst (caps_fst env g b p) p
  | .behind k b, p => by
    rw [capsN, endsN]
    split
    · rfl
    · exact look_fst (caps_fst env g b (p - k)) p
  | .rangeNM s e b, p => by
    rw [capsN]
    split
    · rename_i h
      obtain ⟨rfl, rfl⟩ := h
      rw [endsN, quest_ends, List.map_append, caps_fst env g b p]; rfl
    · exact outside_fst _
  | .ngRangeNM s e b, p => by
    rw [capsN]
    split
    · rename_i h
      obtain ⟨rfl, rfl⟩ := h
      rw [endsN, quest_ends, List.map_cons, caps_fst env g b p]; rfl
    · exact outside_fst _
  | .empty, p => by rw [capsN]; exact outside_fst _
  | .msym k, p => by
    rw [capsN]
    split
    · simp [Function.comp_def]
    · exact outside_fst _
  | .symb _, p => by rw [capsN]; exact outside_fst _
  | .word _, p => by rw [capsN]; exact outside_fst _
  | .enum _, p => by rw [capsN]; exact outside_fst _
  | .nenum _, p => by rw [capsN]; exact outside_fst _
  | .bkTrace _, p => by rw [capsN]; exact outside_fst _
  | .bkTraceN _, p => by rw [capsN]; exact outside_fst _
  | .bkTraceName _, p => by rw [capsN]; exact outside_fst _
  | .bkTraceNName _, p => by rw [capsN]; exact outside_fst _
  | .bkBrack _, p => by rw [capsN]; exact outside_fst _
  | .bkBrackName _, p => by rw [capsN]; exact outside_fst _
  | .nahead _, p => by rw [capsN]; exact outside_fst _
  | .nbehind _ _, p => by rw [capsN]; exact outside_fst _
  | .rangeN _ _, p => by rw [capsN]; exact outside_fst _
  | .ngRangeN _ _, p => by rw [capsN]; exact outside_fst _
end

/-! ## Without the group -/

theorem look_lacks {l : List Way} {k : List Int} (h : l = outside k) (p : Int) :
    (l.head?.toList.map fun v => (p, v.2)) = outside (if k = [] then [] else [p]) := by
  subst h
  cases k <;> simp [outside]

mutual
theorem caps_lacks (env : Env) (g : Grp) : ∀ (l : List Node) (p : Int), lacksG g l = true → caps env g l p = outside (ends env l p)
  | [], p, _ => by rw [caps, ends]; rfl
  | n :: ns, p, h => by
    rw [lacksG, Bool.and_eq_true] at h
    rw [caps, ends]
    cases isOr n with
    | true =>
      simp only [if_true]
      rw [capsN_lacks env g n p h.1, caps_lacks env g ns p h.2]
      simp [outside]
    | false =>
      simp only [Bool.false_eq_true, if_false]
      rw [capsN_lacks env g n p h.1]
      simp only [outside, List.flatMap_map, List.map_flatMap]
      refine flatMap_congr fun q _ => ?_
      rw [caps_lacks env g ns q h.2]
      simp [outside]
theorem capsN_lacks (env : Env) (g : Grp) : ∀ (n : Node) (p : Int), lacksGN g n = true → capsN env g n p = outside (endsN env n p)
  | .brackets idx b, p, h => by
    rw [lacksGN, Bool.and_eq_true] at h
    rw [capsN, endsN, if_pos h.1]
    exact caps_lacks env g b p h.2
  | .named idx b, p, h => by
    rw [lacksGN, Bool.and_eq_true] at h
    rw [capsN, endsN, if_pos h.1]
    exact caps_lacks env g b p h.2
  | .or b, p, h => by rw [lacksGN] at h; rw [capsN, endsN]; exact caps_lacks env g b p h
  | .ahead b, p, h => by rw [lacksGN] at h; rw [capsN, endsN]; exact look_lacks (caps_lacks env g b p h) p
  | .behind k b, p, h => by
    rw [lacksGN] at h
    rw [capsN, endsN]
    split
    · rfl
    · exact look_lacks (caps_lacks env g b (p - k) h) p
  | .rangeNM s e b, p, h => by
    rw [lacksGN] at h
    rw [capsN]
    split
    · rename_i h'
      obtain ⟨rfl, rfl⟩ := h'
      rw [endsN, quest_ends, caps_lacks env g b p h]
      simp [outside]
    · rfl
  | .ngRangeNM s e b, p, h => by
    rw [lacksGN] at h
    rw [capsN]
    split
    · rename_i h'
      obtain ⟨rfl, rfl⟩ := h'
      rw [endsN, quest_ends, caps_lacks env g b p h]
      simp [outside]
    · rfl
  | .empty, p, _ => by rw [capsN]
  | .msym k, p, h => by rw [lacksGN] at h; rw [capsN, if_neg (by simpa using h)]
  | .symb _, p, _ => by rw [capsN]
  | .word _, p, _ => by rw [capsN]
  | .enum _, p, _ => by rw [capsN]
  | .nenum _, p, _ => by rw [capsN]
  | .bkTrace _, p, _ => by rw [capsN]
  | .bkTraceN _, p, _ => by rw [capsN]
  | .bkTraceName _, p, _ => by rw [capsN]
  | .bkTraceNName _, p, _ => by rw [capsN]
  | .bkBrack _, p, _ => by rw [capsN]
  | .bkBrackName _, p, _ => by rw [capsN]
  | .nahead _, p, _ => by rw [capsN]
  | .nbehind _ _, p, _ => by rw [capsN]
  | .rangeN _ _, p, _ => by rw [capsN]
  | .ngRangeN _ _, p, _ => by rw [capsN]
end

/-! ## What failed runs leave depends only on where the continuation fails -/

/-- the same failures -/
def SameNone (K K2 : Int → Option Int) : Prop := ∀ q, K q = none ↔ K2 q = none

theorem find_none_iff {α : Type} {l : List α} {K K2 : α → Option Int} (h : ∀ q ∈ l, (K q = none ↔ K2 q = none)) :
    l.findSome? K = none ↔ l.findSome? K2 = none := by
  rw [List.findSome?_eq_none_iff, List.findSome?_eq_none_iff]
  exact ⟨fun a q hq => (h q hq).1 (a q hq), fun a q hq => (h q hq).2 (a q hq)⟩

theorem loop_same {env : Env} {f : Int → List Int} {lzy : Bool} {K K2 : Int → Option Int} (h : SameNone K K2) :
    SameNone (loopK env f lzy K) (loopK env f lzy K2) := fun q => find_none_iff fun r _ => h r

theorem LoopOk_same {env : Env} {f : Int → List Int} {lzy : Bool} {K K2 : Int → Option Int} (h : SameNone K K2) (p0 old : Int) :
    LoopOk env f lzy K p0 old ↔ LoopOk env f lzy K2 p0 old := by
  unfold LoopOk
  rw [find_none_iff fun r _ => loop_same h r]

theorem after_same {env : Env} {n : Node} {ns : List Node} {K K2 : Int → Option Int} (h : SameNone K K2) : SameNone (afterK env n ns K) (afterK env n ns K2) := by
  unfold afterK
  split
  · exact h
  · exact fun q => find_none_iff fun r _ => h r

mutual
theorem sokL_same {env : Env} : ∀ (l : List Node) (up : List (List Node)) (K K2 : Int → Option Int) (a : Addr) (p0 old : Int), SameNone K K2 →
    (sokL env l up K a p0 old ↔ sokL env l up K2 a p0 old)
  | [], _, _, _, _, _, _, _ => by rw [sokL, sokL]
  | n :: ns, up, K, K2, a, p0, old, h => by
    rw [sokL, sokL]
    exact and_congr (sokN_same n _ _ _ a p0 old (after_same h)) (sokL_same ns up K K2 a p0 old h)
theorem sokN_same {env : Env} : ∀ (n : Node) (pos : List (List Node)) (K K2 : Int → Option Int) (a : Addr) (p0 old : Int), SameNone K K2 →
    (sokN env n pos K a p0 old ↔ sokN env n pos K2 a p0 old)
  | .brackets _ b, pos, K, K2, a, p0, old, h => by rw [sokN, sokN]; exact sokL_same b pos K K2 a p0 old h
  | .named _ b, pos, K, K2, a, p0, old, h => by rw [sokN, sokN]; exact sokL_same b pos K K2 a p0 old h
  | .or b, pos, K, K2, a, p0, old, h => by rw [sokN, sokN]; exact sokL_same b pos K K2 a p0 old h
  | .rangeN s b, pos, K, K2, a, p0, old, h => by
    rw [sokN, sokN]
    exact imp_congr Iff.rfl (and_congr (imp_congr Iff.rfl (LoopOk_same h p0 old)) (sokL_same b pos _ _ a p0 old (loop_same h)))
  | .ngRangeN s b, pos, K, K2, a, p0, old, h => by
    rw [sokN, sokN]
    exact and_congr (imp_congr Iff.rfl (LoopOk_same h p0 old)) (sokL_same b pos _ _ a p0 old (loop_same h))
  | .rangeNM _ _ b, pos, K, K2, a, p0, old, h => by rw [sokN, sokN]; exact sokL_same b pos K K2 a p0 old h
  | .ngRangeNM _ _ b, pos, K, K2, a, p0, old, h => by rw [sokN, sokN]; exact sokL_same b pos K K2 a p0 old h
  | .empty, _, _, _, _, _, _, _ => by rw [sokN, sokN]
  | .msym _, _, _, _, _, _, _, _ => by rw [sokN, sokN]
  | .symb _, _, _, _, _, _, _, _ => by rw [sokN, sokN]
  | .word _, _, _, _, _, _, _, _ => by rw [sokN, sokN]
  | .enum _, _, _, _, _, _, _, _ => by rw [sokN, sokN]
  | .nenum _, _, _, _, _, _, _, _ => by rw [sokN, sokN]
  | .bkTrace _, _, _, _, _, _, _, _ => by rw [sokN, sokN]
  | .bkTraceN _, _, _, _, _, _, _, _ => by rw [sokN, sokN]
  | .bkTraceName _, _, _, _, _, _, _, _ => by rw [sokN, sokN]
  | .bkTraceNName _, _, _, _, _, _, _, _ => by rw [sokN, sokN]
  | .bkBrack _, _, _, _, _, _, _, _ => by rw [sokN, sokN]
  | .bkBrackName _, _, _, _, _, _, _, _ => by rw [sokN, sokN]
  | .ahead _, _, _, _, _, _, _, _ => by rw [sokN, sokN]
  | .nahead _, _, _, _, _, _, _, _ => by rw [sokN, sokN]
  | .behind _ _, _, _, _, _, _, _, _ => by rw [sokN, sokN]
  | .nbehind _ _, _, _, _, _, _, _, _ => by rw [sokN, sokN]
end

theorem Agree.same {env : Env} {sok : Sok} {l : List Node} {up : List (List Node)} {K K2 : Int → Option Int} (h : Agree env sok l up K)
    (hk : SameNone K K2) : Agree env sok l up K2 := fun a p0 old ha => (h a p0 old ha).trans (sokL_same l up K K2 a p0 old hk)

theorem AgreeAt.same {env : Env} {sok : Sok} {n : Node} {pos : List (List Node)} {K K2 : Int → Option Int} (h : AgreeAt env sok n pos K)
    (hk : SameNone K K2) : AgreeAt env sok n pos K2 := fun a p0 old ha => (h a p0 old ha).trans (sokN_same n pos K K2 a p0 old hk)

/-! ## The result of a run tells what the group holds -/

/-- a number for what the group holds -/
def code (c : Option (Int × Int)) : Int := ((Encodable.encode c : Nat) : Int)

theorem code_inj {c d : Option (Int × Int)} (h : code c = code d) : c = d := by
  unfold code at h
  exact Encodable.encode_injective (by omega)

/-- the result of the continuation, for a way -/
def coded (K : Int → Option Int) (v : Way) : Option Int := (K v.1).map fun _ => code v.2

/-- the group holds what the result says -/
def Holds (g : Grp) (r : Int) (m : Mem) : Prop := ∀ s e, r = code (some (s, e)) → m.place g = (s, e)

theorem coded_none {K : Int → Option Int} {v : Way} : coded K v = none ↔ K v.1 = none := by
  unfold coded
  cases K v.1 <;> simp

theorem ways_none {env : Env} {g : Grp} {l : List Node} {K : Int → Option Int} {p : Int} :
    (caps env g l p).findSome? (coded K) = none ↔ (ends env l p).findSome? K = none := by
  rw [← caps_fst env g l p, List.findSome?_map]
  exact find_none_iff fun v _ => coded_none

theorem find_outside (l : List Int) (K : Int → Option Int) : (outside l).findSome? (coded K) = l.findSome? fun q => (K q).map fun _ => code none := by
  unfold outside
  rw [List.findSome?_map]
  rfl

theorem find_const (l : List Int) (K : Int → Option Int) (c : Int) : l.findSome? (fun q => (K q).map fun _ => c) = (l.findSome? K).map fun _ => c := by
  induction l with
  | nil => rfl
  | cons q l ih =>
    rw [List.findSome?_cons, List.findSome?_cons, ih]
    cases K q <;> rfl

theorem Runs.any {env : Env} {T : Addr → Prop} {sok : Sok} {Fin : Int → Mem → Prop} {Inv : Mem → Prop} {c : Cfg} {res : Option Int}
    (h : Runs env T sok Fin Inv c res) : Runs env T sok (fun _ _ => True) Inv c res :=
  fun m S hi => lands_mono (h m S hi) fun _ hp => ⟨hp.frame, hp.ok, fun _ _ => trivial⟩

theorem post_map {T : Addr → Prop} {sok : Sok} {Fin Fin' : Int → Mem → Prop} {m m' : Mem} {res : Option Int} (f : Int → Int) (h : Post T sok Fin m res m')
    (hf : ∀ r, Fin' (f r) m') : Post T sok Fin' m (res.map f) m' :=
  ⟨h.frame, fun e => h.ok (by cases res with | none => rfl | some _ => cases e), fun r e => by
    cases res with
    | none => cases e
    | some r' => simp only [Option.map_some, Option.some.injEq] at e; rw [← e]; exact hf r'⟩

theorem Runs.map {env : Env} {T : Addr → Prop} {sok : Sok} {Fin Fin' : Int → Mem → Prop} {Inv : Mem → Prop} {c : Cfg} {res : Option Int}
    (h : Runs env T sok Fin Inv c res) (f : Int → Int) (hf : ∀ r m, Fin' (f r) m) : Runs env T sok Fin' Inv c (res.map f) := by
  intro m S hi
  have e : (res.map f).isSome = res.isSome := by cases res <;> rfl
  rw [e]
  exact lands_mono (h m S hi) fun _ hp => post_map f hp fun r => hf r _

theorem holds_none (g : Grp) (m : Mem) : Holds g (code none) m := fun _ _ e => by cases code_inj e

/-! ## The two statements -/

/-- a run over the chain `l` -/
def CapL (env : Env) (H : Int) (root : List Node) (g : Grp) (l : List Node) : Prop :=
  ∀ (up : List (List Node)) (K : Int → Option Int) (Tc : Addr → Prop) (sok : Sok) (Inv : Mem → Prop) (p : Int),
    inFrag false l = true → At root (l :: up) → (lacksG g l = false → upLacks g up = true ∧ ∀ m, Inv m → Zeros g m up) → 0 ≤ p → p ≤ H → Agree env sok l up K →
    (∀ a, Tc a → ¬ Reg l.length (addr up) a) → Stable (fun a => Reg l.length (addr up) a ∨ Tc a) sok Inv → Loc (Reg l.length (addr up)) Inv →
    (∀ q ∈ ends env l p, Runs env Tc sok (fun _ _ => True) Inv ⟨up, false, q⟩ (K q)) →
    Runs env (fun a => Reg l.length (addr up) a ∨ Tc a) sok (Holds g) Inv ⟨l :: up, true, p⟩ ((caps env g l p).findSome? (coded K))

/-- a run over the node `n`, not an alternative -/
def CapN (env : Env) (H : Int) (root : List Node) (g : Grp) (n : Node) : Prop :=
  ∀ (ns : List Node) (up : List (List Node)) (K : Int → Option Int) (Tn : Addr → Prop) (sok : Sok) (Inv : Mem → Prop) (p : Int),
    inFragN false n = true → At root ((n :: ns) :: up) → (lacksGN g n = false → lacksG g ns = true ∧ upLacks g up = true ∧ ∀ m, Inv m → Zeros g m up) → 0 ≤ p → p ≤ H →
    AgreeAt env sok n ((n :: ns) :: up) K → (∀ a, Tn a → ¬ Sub (addr ((n :: ns) :: up)) a) →
    Stable (fun a => Sub (addr ((n :: ns) :: up)) a ∨ Tn a) sok Inv → Loc (Sub (addr ((n :: ns) :: up))) Inv →
    (∀ q ∈ endsN env n p, Runs env Tn sok (fun _ _ => True) Inv ⟨ns :: up, true, q⟩ (K q)) →
    Runs env (fun a => Sub (addr ((n :: ns) :: up)) a ∨ Tn a) sok (Holds g) Inv ⟨(n :: ns) :: up, true, p⟩ ((capsN env g n p).findSome? (coded K))

theorem same_map (K : Int → Option Int) (f : Int → Int → Int) : SameNone K fun q => (K q).map (f q) := fun q => by show K q = none ↔ (K q).map (f q) = none; cases K q <;> simp

theorem capL_lacks {env : Env} {H : Int} {root : List Node} (he : EnvOk env H) {g : Grp} {l : List Node} (hl : lacksG g l = true) : CapL env H root g l := by
  intro up K Tc sok Inv p hf _ _ h0 h1 hag hdis hst hloc hk
  rw [caps_lacks env g l p hl, find_outside]
  exact chain_ok he l false up _ Tc sok (Holds g) Inv p hf h0 h1 (hag.same (same_map K _)) (fun _ => hdis) hst hloc fun q hq =>
    (hk q hq).map _ fun _ m => holds_none g m

theorem capN_lacks {env : Env} {H : Int} {root : List Node} (he : EnvOk env H) {g : Grp} {n : Node} (ho : isOr n = false) (hn : lacksGN g n = true) : CapN env H root g n := by
  intro ns up K Tn sok Inv p hf _ _ h0 h1 hag hdis hst hloc hk
  rw [capsN_lacks env g n p hn, find_outside]
  exact (each_ok he n).1 ho false ns up _ Tn sok (Holds g) Inv p hf h0 h1 (hag.same (same_map K _)) (fun _ => hdis) hst hloc fun q hq =>
    (hk q hq).map _ fun _ m => holds_none g m

/-! ## Chains -/

theorem capL_cons {env : Env} {H : Int} {root : List Node} (he : EnvOk env H) {g : Grp} {n : Node} {ns : List Node} (hno : isOr n = false) (hn : CapN env H root g n)
    (hns : CapL env H root g ns) (hone : (lacksGN g n || lacksG g ns) = true) : CapL env H root g (n :: ns) := by
  intro up K Tc sok Inv p hf hat hup h0 h1 hag hdis hst hloc hk
  rw [inFrag, Bool.and_eq_true] at hf
  have hends : ends env (n :: ns) p = (endsN env n p).flatMap (ends env ns) := by rw [ends, hno]; rfl
  have hafter : afterK env n ns K = fun q => (ends env ns q).findSome? K := by rw [afterK, hno]; rfl
  have hcaps : caps env g (n :: ns) p = (capsN env g n p).flatMap fun v => (caps env g ns v.1).map fun w => (w.1, w.2.or v.2) := by rw [caps, hno]; rfl
  have hagn : AgreeAt env sok n ((n :: ns) :: up) fun q => (ends env ns q).findSome? K := by have := hag.node; rw [hafter] at this; exact this
  have hdis1 : ∀ a, (Reg ns.length (addr up) a ∨ Tc a) → ¬ Sub (addr ((n :: ns) :: up)) a := by
    rintro a (ha | ha) hs
    · exact sub_not_reg hs ha
    · exact hdis a ha hs.reg
  have hst1 : Stable (fun a => Sub (addr ((n :: ns) :: up)) a ∨ Reg ns.length (addr up) a ∨ Tc a) sok Inv := hst.mono (by
      rintro a (ha | ha | ha)
      · exact Or.inl ha.reg
      · exact Or.inl (ha.mono (by simp))
      · exact Or.inr ha)
  have hloc1 : Loc (Sub (addr ((n :: ns) :: up))) Inv := hloc.mono fun a ha => ha.reg
  have hback : ∀ a, (Sub (addr ((n :: ns) :: up)) a ∨ Reg ns.length (addr up) a ∨ Tc a) → Reg (n :: ns).length (addr up) a ∨ Tc a := by
    rintro a (ha | ha | ha)
    · exact Or.inl ha.reg
    · exact Or.inl (ha.mono (by simp))
    · exact Or.inr ha
  have hst2 : Stable (fun a => Reg ns.length (addr up) a ∨ Tc a) sok Inv := hst.mono fun a ha => ha.imp (fun x => x.mono (by simp)) id
  have hloc2 : Loc (Reg ns.length (addr up)) Inv := hloc.mono fun a ha => ha.mono (by simp)
  have hdis2 : ∀ a, Tc a → ¬ Reg ns.length (addr up) a := fun a ha hr => hdis a ha (hr.mono (by simp))
  have hk2 : ∀ q ∈ endsN env n p, ∀ r ∈ ends env ns q, Runs env Tc sok (fun _ _ => True) Inv ⟨up, false, r⟩ (K r) := by
    intro q hq r hr
    refine hk r ?_
    rw [hends, List.mem_flatMap]
    exact ⟨q, hq, hr⟩
  by_cases hl : lacksGN g n = true
  · have key := (each_ok he n).1 hno false ns up (fun q => (caps env g ns q).findSome? (coded K)) (fun a => Reg ns.length (addr up) a ∨ Tc a) sok (Holds g) Inv
      p hf.1 h0 h1 (hagn.same fun q => (ways_none (g := g)).symm) (fun _ => hdis1) hst1 hloc1 (by
        intro q hq
        have := endsN_fwd he n p q h0 h1 hq
        exact hns up K Tc sok Inv q hf.2 hat.tail (fun h => hup (by rw [lacksG, h]; simp)) (by omega) this.2 hag.tail hdis2 hst2 hloc2 (hk2 q hq))
    have e : (caps env g (n :: ns) p).findSome? (coded K) = (endsN env n p).findSome? fun q => (caps env g ns q).findSome? (coded K) := by
      rw [hcaps, capsN_lacks env g n p hl, outside, List.flatMap_map]
      have : ∀ q : Int, (List.map (fun w : Way => (w.1, w.2.or (none : Option (Int × Int)))) (caps env g ns q)) = caps env g ns q := by
        intro q
        conv => rhs; rw [← List.map_id (caps env g ns q)]
        refine List.map_congr_left fun w _ => ?_
        obtain ⟨a, b⟩ := w
        cases b <;> rfl
      simp only [this]
      rw [find_flatMap]
    rw [e]
    exact key.mono hback
  · have hlns : lacksG g ns = true := by simpa [hl] using hone
    have hup' := hup (by rw [lacksG]; simp [hl])
    have key := hn ns up (fun q => (ends env ns q).findSome? K) (fun a => Reg ns.length (addr up) a ∨ Tc a) sok Inv
      p hf.1 hat (fun _ => ⟨hlns, hup'.1, hup'.2⟩) h0 h1 hagn hdis1 hst1 hloc1 (by
        intro q hq
        have := endsN_fwd he n p q h0 h1 hq
        exact chain_ok he ns false up K Tc sok _ Inv q hf.2 (by omega) this.2 hag.tail (fun _ => hdis2) hst2 hloc2 (hk2 q hq))
    have e : (caps env g (n :: ns) p).findSome? (coded K) = (capsN env g n p).findSome? (coded fun q => (ends env ns q).findSome? K) := by
      rw [hcaps, find_flatMap]
      refine find_congr fun v _ => ?_
      rw [caps_lacks env g ns v.1 hlns, outside, List.map_map, List.findSome?_map]
      show List.findSome? (fun q => (K q).map fun _ => code (Option.or none v.2)) _ = ((ends env ns v.1).findSome? K).map fun _ => code v.2
      rw [find_const, Option.none_or]
    rw [e]
    exact key.mono hback

theorem capL_or {env : Env} {H : Int} {root : List Node} {g : Grp} {b ns : List Node} (hb : CapL env H root g b) (hns : CapL env H root g ns)
    (hone : (lacksG g b || lacksG g ns) = true) : CapL env H root g (.or b :: ns) := by
  intro up K Tc sok Inv p hf hat hup h0 h1 hag hdis hst hloc hk m S hi
  rw [inFrag, Bool.and_eq_true, inFragN] at hf
  have hends : ends env (.or b :: ns) p = ends env b p ++ ends env ns p := by rw [ends, endsN]; rfl
  have hcaps : caps env g (.or b :: ns) p = caps env g b p ++ caps env g ns p := by rw [caps, capsN]; rfl
  have hnode : AgreeAt env sok (.or b) ((.or b :: ns) :: up) K := hag.node
  have sub1 : ∀ a, Reg b.length (addr ((.or b :: ns) :: up)) a → Reg (Node.or b :: ns).length (addr up) a := fun a ha => ha.sub.reg
  have hup1 : lacksG g b = false → upLacks g ((.or b :: ns) :: up) = true ∧ ∀ m, Inv m → Zeros g m ((.or b :: ns) :: up) := by
    intro h
    have h2 : lacksG g ns = true := by simpa [h] using hone
    have h3 := hup (by rw [lacksG, lacksGN, h]; rfl)
    exact ⟨by rw [upLacks, h2, h3.1]; rfl, fun m hm => ⟨fun e => (by cases e), h3.2 m hm⟩⟩
  have key := hb ((.or b :: ns) :: up) K Tc sok Inv p hf.1 (.sub hat (List.suffix_refl _)) hup1 h0 h1 (hnode.body fun a p0 old _ => by rw [sokN])
    (fun a ha hr => hdis a ha (sub1 a hr)) (hst.mono fun a ha => ha.imp (sub1 a) id) (hloc.mono sub1) (by
      intro q hq m S hi
      refine lands_goto (m1 := m) rfl (Link.refl _ _ m).pre hi (hk q (by rw [hends]; simp [hq])) fun a ha => ha)
  have key2 := hns up K Tc sok Inv p hf.2 hat.tail (fun h => hup (by rw [lacksG, h]; simp)) h0 h1 hag.tail (fun a ha hr => hdis a ha (hr.mono (by simp)))
    (hst.mono fun a ha => ha.imp (fun x => x.mono (by simp)) id) (hloc.mono fun a ha => ha.mono (by simp))
    (fun q hq => hk q (by rw [hends]; simp [hq]))
  rw [hcaps, List.findSome?_append]
  have hs : step env ⟨⟨(.or b :: ns) :: up, true, p⟩, none, m, S⟩ = .inl ⟨⟨b :: (.or b :: ns) :: up, true, p⟩, none, m,
    ⟨⟨(.or b :: ns) :: up, true, p⟩, .yes, .brk⟩ :: S⟩ := rfl
  refine lands_alt rfl hs (key m _ hi) ?_ ?_
  · intro r m2 hr h
    rw [hr] at h ⊢
    exact h.mono fun a ha => ha.imp (sub1 a) id
  · intro hno m2 h
    have hl := (h.mono (T' := fun a => Reg (Node.or b :: ns).length (addr up) a ∨ Tc a) fun a ha => ha.imp (sub1 a) id).link hno
    rw [hno, Option.none_or]
    exact lands_step rfl (lands_mono (key2 m2 S (hst m m2 hi hl)) fun _ h2 => hl.pre.post (h2.mono fun a ha => ha.imp (fun x => x.mono (by simp)) id))

/-! ## Brackets -/

theorem step_node {env : Env} {n : Node} {ns : List Node} {up : List (List Node)} {left : Bool} {q : Int} {m : Mem} {S : List Elem} :
    step env ⟨⟨(n :: ns) :: up, left, q⟩, none, m, S⟩ = after ⟨(n :: ns) :: up, left, q⟩ S (execNode env n ns up left q m) := rfl

/-- brackets of another group -/
theorem capN_wrap {env : Env} {H : Int} {root : List Node} {g : Grp} {n : Node} {b : List Node} (hbody : n.body = b) (hb : CapL env H root g b)
    (hin : ∀ ns up p m, execNode env n ns up true p m = (.goto ⟨b :: (n :: ns) :: up, true, p⟩,
      m.set (addr ((n :: ns) :: up)) { m.vars (addr ((n :: ns) :: up)) with start := p }))
    (hout : ∀ ns up q m, ∃ m', execNode env n ns up false q m = (.goto ⟨ns :: up, true, q⟩, m') ∧ m'.vars = m.vars)
    (hends : ∀ p, endsN env n p = ends env b p) (hcaps : ∀ p, capsN env g n p = caps env g b p) (hfr : inFragN false n = true → inFrag false b = true)
    (hsok : ∀ pos K a p0 old, sokN env n pos K a p0 old ↔ sokL env b pos K a p0 old) (hex : exitG g n = true)
    (hla : lacksG g b = false → lacksGN g n = false) : CapN env H root g n := by
  intro ns up K Tn sok Inv p hf hat hup h0 h1 hag hdis hst hloc hk m S hi
  rw [hends] at hk
  rw [hcaps]
  have hs : step env ⟨⟨(n :: ns) :: up, true, p⟩, none, m, S⟩ = .inl ⟨⟨b :: (n :: ns) :: up, true, p⟩, none,
      m.set (addr ((n :: ns) :: up)) { m.vars (addr ((n :: ns) :: up)) with start := p }, S⟩ := by
    rw [step_node, hin]; rfl
  have key := hb ((n :: ns) :: up) K Tn sok Inv p (hfr hf) (.sub hat (by rw [hbody]; exact List.suffix_refl _)) (fun h => by
      have := hup (hla h)
      exact ⟨by rw [upLacks, hex, this.1, this.2.1]; rfl, fun m hm => ⟨fun e => (by rw [hex] at e; cases e), this.2.2 m hm⟩⟩) h0 h1 (hag.body fun a p0 old _ => hsok _ _ _ _ _)
    (fun a ha hr => hdis a ha hr.sub) (hst.mono fun a ha => ha.imp (fun x => x.sub) id) (hloc.mono fun a ha => ha.sub) (by
      intro q hq m S hi
      obtain ⟨m', e, v⟩ := hout ns up q m
      refine lands_goto (m1 := m') ?_ (Link.pre ⟨fun a _ => by rw [v], fun a => by rw [v]; exact Or.inl ⟨rfl, rfl⟩⟩)
        (hloc m m' hi (fun a _ => by rw [v])) (hk q hq) fun a ha => ha
      rw [step_node, e]; rfl)
  refine lands_goto hs (pre_set (Or.inl (Sub.refl _)) fun _ => Or.inl ⟨rfl, rfl⟩) (hloc.set hi (Sub.refl _) _) key ?_
  exact fun a ha => ha.imp (fun x => x.sub) id

/-- the brackets of the group -/
theorem capN_own {env : Env} {H : Int} {root : List Node} (he : EnvOk env H) {g : Grp} (hg : g ≠ .num 0) {n : Node} {b : List Node}
    (hin : ∀ ns up p m, execNode env n ns up true p m = (.goto ⟨b :: (n :: ns) :: up, true, p⟩,
      m.set (addr ((n :: ns) :: up)) { m.vars (addr ((n :: ns) :: up)) with start := p }))
    (hout : ∀ ns up q m, (m.vars (addr ((n :: ns) :: up))).start ≤ q →
      ∃ m', execNode env n ns up false q m = (.goto ⟨ns :: up, true, q⟩, m') ∧ m'.vars = m.vars ∧ m'.place g = ((m.vars (addr ((n :: ns) :: up))).start, q))
    (hends : ∀ p, endsN env n p = ends env b p) (hcaps : ∀ p, capsN env g n p = (ends env b p).map fun q => (q, some (p, q)))
    (hfr : inFragN false n = true → inFrag false b = true)
    (hsok : ∀ pos K a p0 old, sokN env n pos K a p0 old ↔ sokL env b pos K a p0 old) (hla : lacksGN g n = false) : CapN env H root g n := by
  intro ns up K Tn sok Inv p hf hat hup h0 h1 hag hdis hst hloc hk m S hi
  obtain ⟨hns, hup, hz⟩ := hup hla
  rw [hends] at hk
  rw [hcaps, List.findSome?_map]
  have hs : step env ⟨⟨(n :: ns) :: up, true, p⟩, none, m, S⟩ = .inl ⟨⟨b :: (n :: ns) :: up, true, p⟩, none,
      m.set (addr ((n :: ns) :: up)) { m.vars (addr ((n :: ns) :: up)) with start := p }, S⟩ := by
    rw [step_node, hin]; rfl
  have key := chain_ok he b false ((n :: ns) :: up) (fun q => (K q).map fun _ => code (some (p, q))) Tn sok (Holds g)
    (fun m => Inv m ∧ (m.vars (addr ((n :: ns) :: up))).start = p) p (hfr hf) h0 h1
    ((hag.body fun a p0 old _ => hsok _ _ _ _ _).same (same_map K _))
    (fun _ a ha hr => hdis a ha hr.sub)
    (by
      rintro m m' ⟨i1, i2⟩ hl
      refine ⟨hst m m' i1 (hl.mono fun a ha => ha.imp (fun x => x.sub) id), ?_⟩
      rw [hl.frame]
      · exact i2
      · rintro (x | x)
        · exact x.ne rfl
        · exact hdis _ x (Sub.refl _))
    (by
      rintro m m' ⟨i1, i2⟩ hfr
      refine ⟨hloc m m' i1 (fun a ha => hfr a fun x => ha x.sub), ?_⟩
      rw [hfr _ fun x => x.ne rfl]
      exact i2)
    (by
      rintro q hq m S ⟨hi, hstart⟩
      have hlt := ends_fwd he b p q h0 h1 hq
      obtain ⟨m', e, v, hpl⟩ := hout ns up q m (by rw [hstart]; omega)
      have hs1 : step env ⟨⟨(n :: ns) :: up, false, q⟩, none, m, S⟩ = .inl ⟨⟨ns :: up, true, q⟩, none, m', S⟩ := by rw [step_node, e]; rfl
      have hi' := hloc m m' hi (fun a _ => by rw [v])
      have hl := runs_keep hg (hk q hq) (show Quiet g ⟨ns :: up, true, q⟩ = true by simp [Quiet, posLacks, hns, hup]) m' S
        hi' ⟨hat.tail, zero_of_quiet hns (hz m' hi')⟩
      rw [show ((K q).map fun _ => code (some (p, q))).isSome = (K q).isSome by cases K q <;> rfl]
      refine lands_step hs1 (lands_mono hl ?_)
      rintro m2 ⟨hp, hsame⟩
      have hpre : Pre Tn sok (K q) m m' := Link.pre ⟨fun a _ => by rw [v], fun a => by rw [v]; exact Or.inl ⟨rfl, rfl⟩⟩
      refine post_map _ (hpre.post hp) fun _ s e hc => ?_
      have := code_inj hc
      simp only [Option.some.injEq, Prod.mk.injEq] at this
      rw [hsame, hpl, hstart, this.1, this.2])
  exact lands_goto hs (pre_set (Or.inl (Sub.refl _)) fun _ => Or.inl ⟨rfl, rfl⟩) ⟨hloc.set hi (Sub.refl _) _, by rw [set_same]⟩ key
    fun a ha => ha.imp (fun x => x.sub) id

end Verif.RegExp
