import Verif.RegExp.GroupsPlain

/-!
# The groups of a written expression (C80)

Groups are counted as they open, from 0 on: those written `(` on their own (`named = false`), those written `(?{name}` on their own (`named = true`).
`Re.ways`: the ways a match of a written expression from a position on may go, the preferred one first: where each ends, and from where to where it
passed the `k`-th group.
-/
namespace Verif.RegExp

/-- the number of groups -/
def Re.count (named : Bool) : Re → Nat
  | .group a => (if named then 0 else 1) + a.count named
  | .named _ a => (if named then 1 else 0) + a.count named
  | .bare a | .post a _ => a.count named
  | .cat a b | .alt a b => a.count named + b.count named
  | .eps | .space _ | .chr _ | .ctl _ | .sym _ | .cls _ _ | .trace _ | .traceN _ | .traceName _ | .ref _ | .refName _ => 0

/-- what is under it is matched once at most, and is part of the match -/
def Op.once : Op → Bool
  | .maybe _ | .ahead | .behind _ => true
  | .many _ | .many1 _ | .exactly _ _ | .atLeast _ _ | .between _ _ _ | .nahead | .nbehind _ => false

/-- the `k`-th group is not inside a repetition (other than `?` and `??`) or a negative look-around -/
def Re.free (named : Bool) : Re → Nat → Bool
  | .group a, k => if named then a.free named k else decide (k = 0) || a.free named (k - 1)
  | .named _ a, k => if named then decide (k = 0) || a.free named (k - 1) else a.free named k
  | .bare a, k => a.free named k
  | .post a o, k => o.once && a.free named k
  | .cat a b, k | .alt a b, k => if k < a.count named then a.free named k else b.free named (k - a.count named)
  | .eps, _ | .space _, _ | .chr _, _ | .ctl _, _ | .sym _, _ | .cls _ _, _ | .trace _, _ | .traceN _, _ | .traceName _, _ | .ref _, _
  | .refName _, _ => true

/-- `?` and look-arounds: `?` prefers to pass, `??` not to; a look-around takes the first way there is, and no text -/
def Op.ways {α : Type} (f : Int → List (Int × Option α)) : Op → Int → List (Int × Option α)
  | .maybe z, p => if z then (p, none) :: f p else f p ++ [(p, none)]
  | .ahead, p => (f p).head?.toList.map fun v => (p, v.2)
  | .behind d, p => if p < d then [] else (f (p - d)).head?.toList.map fun v => (p, v.2)
  | .many _, _ | .many1 _, _ | .exactly _ _, _ | .atLeast _ _, _ | .between _ _ _, _ | .nahead, _ | .nbehind _, _ => []

/-- the ways from a position on, the preferred one first (for a group that is there, and free) -/
noncomputable def Re.ways (x : Ctx) (env : Env) (named : Bool) : Re → Nat → Int → List Way
  | .group a, k, p => if named then a.ways x env named k p else
      if k = 0 then (a.ends x env p).map fun q => (q, some (p, q)) else a.ways x env named (k - 1) p
  | .named _ a, k, p => if named then
      if k = 0 then (a.ends x env p).map fun q => (q, some (p, q)) else a.ways x env named (k - 1) p else a.ways x env named k p
  | .bare a, k, p => a.ways x env named k p
  | .cat a b, k, p => if k < a.count named then (a.ways x env named k p).flatMap fun v => (b.ends x env v.1).map fun q => (q, v.2) else
      (a.ends x env p).flatMap fun r => b.ways x env named (k - a.count named) r
  | .alt a b, k, p => if k < a.count named then a.ways x env named k p ++ (b.ends x env p).map fun q => (q, none) else
      ((a.ends x env p).map fun q => (q, none)) ++ b.ways x env named (k - a.count named) p
  | .post a o, k, p => o.ways (a.ways x env named k) p
  | .eps, _, _ | .space _, _, _ | .chr _, _, _ | .ctl _, _, _ | .sym _, _, _ | .cls _ _, _, _ | .trace _, _, _ | .traceN _, _, _ | .traceName _, _, _
  | .ref _, _, _ | .refName _, _, _ => []

/-- the expression inside the `k`-th group -/
def Re.sub (named : Bool) : Re → Nat → Option Re
  | .group a, k => if named then a.sub named k else if k = 0 then some a else a.sub named (k - 1)
  | .named _ a, k => if named then if k = 0 then some a else a.sub named (k - 1) else a.sub named k
  | .bare a, k | .post a _, k => a.sub named k
  | .cat a b, k | .alt a b, k => if k < a.count named then a.sub named k else b.sub named (k - a.count named)
  | .eps, _ | .space _, _ | .chr _, _ | .ctl _, _ | .sym _, _ | .cls _ _, _ | .trace _, _ | .traceN _, _ | .traceName _, _ | .ref _, _
  | .refName _, _ => none

/-! ## The numbers in the tree -/

def grp (named : Bool) (i : Nat) : Grp := if named then .name i else .num i

def base (named : Bool) (st : CState) : Nat := if named then st.names.length else st.cMatch

theorem base_group (named : Bool) (st : CState) : base named { st with cMatch := st.cMatch + 1 } = base named st + (if named then 0 else 1) := by
  cases named <;> rfl

theorem base_named (named : Bool) (st : CState) (n : Text) :
    base named { st with names := st.names ++ [n] } = base named st + (if named then 1 else 0) := by
  cases named <;> simp [base]

theorem after_base (named : Bool) (e : Re) : ∀ st, base named (e.after st) = base named st + e.count named := by
  induction e with
  | group a ih => intro st; rw [Re.after, ih, base_group, Re.count]; omega
  | named n a ih => intro st; rw [Re.after, ih, base_named, Re.count]; omega
  | bare a ih => intro st; exact ih st
  | post a o ih => intro st; exact ih st
  | cat a b iha ihb => intro st; rw [Re.after, ihb, iha, Re.count]; omega
  | alt a b iha ihb => intro st; rw [Re.after, ihb, iha, Re.count]; omega
  | _ => intro st; rfl

theorem op_lacks (g : Grp) (o : Op) (b : List Node) : lacksGN g (o.node b) = lacksG g b := by
  cases o <;> simp only [Op.node] <;> (try split) <;> rw [lacksGN]

theorem lacksG_one (g : Grp) (n : Node) : lacksG g [n] = lacksGN g n := by rw [lacksG, lacksG, Bool.and_true]

theorem notNum_grp {named : Bool} {i : Nat} {st : CState} (h : named = false → i ≠ base named st) : notNum (grp named i) (some st.cMatch) = true := by
  cases named with
  | true => simp [notNum, Grp.hasNum, grp]
  | false => simpa [notNum, Grp.hasNum, grp, base] using h rfl

theorem notName_grp {named : Bool} {i : Nat} {st : CState} (h : named = true → i ≠ base named st) :
    notName (grp named i) (some st.names.length) = true := by
  cases named with
  | false => simp [notName, grp]
  | true => simpa [notName, grp, base] using h rfl

theorem tree_lacks {x : Ctx} (named : Bool) {i : Nat} (e : Re) :
    ∀ {st : CState}, i < base named st ∨ base named st + e.count named ≤ i → lacksG (grp named i) (e.tree x st) = true := by
  induction e with
  | group a ih =>
    intro st h
    rw [Re.count] at h
    rw [Re.tree, lacksG_one, lacksGN, notNum_grp (fun hn => by rw [hn] at h ⊢; simp at h; omega), ih (by rw [base_group]; omega)]; rfl
  | named n a ih =>
    intro st h
    rw [Re.count] at h
    rw [Re.tree, lacksG_one, lacksGN, notName_grp (fun hn => by rw [hn] at h ⊢; simp at h; omega), ih (by rw [base_named]; omega)]; rfl
  | bare a ih => intro st h; rw [Re.tree, lacksG_one, lacksGN, ih h]; rfl
  | post a o ih => intro st h; rw [Re.tree, lacksG_one, op_lacks]; exact ih h
  | cat a b iha ihb =>
    intro st h
    rw [Re.count] at h
    rw [Re.tree, lacksG_append, iha (by omega), ihb (by rw [after_base]; omega)]; rfl
  | alt a b iha ihb =>
    intro st h
    rw [Re.count] at h
    rw [Re.tree, lacksG, lacksGN, iha (by omega), ihb (by rw [after_base]; omega)]; rfl
  | sym m => intro st h; cases named <;> rfl
  | _ => intro st h; rfl

theorem op_open {g : Grp} {o : Op} {b : List Node} (h : o.once = true) : openGN g (o.node b) = (lacksG g b || openG g b) := by
  have key : openG g b = (lacksG g b || openG g b) := by
    cases h1 : lacksG g b with
    | true => rw [open_lacks b h1]; rfl
    | false => rfl
  cases o with
  | maybe z => cases z <;> simp [Op.node, openGN]
  | ahead => simp only [Op.node, openGN]; exact key
  | behind d => simp only [Op.node, openGN]; exact key
  | many _ | many1 _ | exactly _ _ | atLeast _ _ | between _ _ _ | nahead | nbehind _ => cases h

theorem tree_open {x : Ctx} (named : Bool) (e : Re) :
    ∀ {st : CState} {k : Nat}, k < e.count named → e.free named k = true → openG (grp named (base named st + k)) (e.tree x st) = true := by
  induction e with
  | group a ih =>
    intro st k hk hf
    rw [Re.tree, openG_one, openGN]
    rw [Re.count] at hk
    rw [Re.free] at hf
    cases named with
    | true =>
      rw [if_pos (by simp [notNum, Grp.hasNum, grp])]
      exact ih (st := { st with cMatch := st.cMatch + 1 }) (by simpa using hk) (by simpa using hf)
    | false =>
      by_cases h0 : k = 0
      · subst h0
        rw [if_neg (by simp [notNum, Grp.hasNum, grp, base]), tree_lacks false a (by left; rw [base_group]; simp)]
        rfl
      · have := ih (st := { st with cMatch := st.cMatch + 1 }) (k := k - 1) (by simp at hk; omega) (by simpa [h0] using hf)
        rw [base_group] at this
        have e1 : base false st + (if false = true then 0 else 1) + (k - 1) = base false st + k := by simp; omega
        rw [e1] at this
        rw [if_pos (by simp [notNum, Grp.hasNum, grp, base]; omega)]
        exact this
  | named n a ih =>
    intro st k hk hf
    rw [Re.tree, openG_one, openGN]
    rw [Re.count] at hk
    rw [Re.free] at hf
    cases named with
    | false =>
      rw [if_pos (by simp [notName, grp])]
      exact ih (st := { st with names := st.names ++ [n] }) (by simpa using hk) (by simpa using hf)
    | true =>
      by_cases h0 : k = 0
      · subst h0
        rw [if_neg (by simp [notName, grp, base])]
        exact tree_lacks true a (by left; rw [base_named]; simp)
      · have := ih (st := { st with names := st.names ++ [n] }) (k := k - 1) (by simp at hk; omega) (by simpa [h0] using hf)
        rw [base_named] at this
        have e1 : base true st + (if true = true then 1 else 0) + (k - 1) = base true st + k := by simp; omega
        rw [e1] at this
        rw [if_pos (by simp [notName, grp, base]; omega)]
        exact this
  | bare a ih => intro st k hk hf; rw [Re.tree, openG_one, openGN, if_pos (show notName _ none = true from rfl)]; exact ih hk hf
  | post a o ih =>
    intro st k hk hf
    rw [Re.free, Bool.and_eq_true] at hf
    rw [Re.tree, openG_one, op_open hf.1, ih hk hf.2, Bool.or_true]
  | cat a b iha ihb =>
    intro st k hk hf
    rw [Re.count] at hk
    rw [Re.free] at hf
    rw [Re.tree, openG_iff_append]
    split at hf
    · rename_i h
      have hb : lacksG (grp named (base named st + k)) (b.tree x (a.after st)) = true := tree_lacks named b (by left; rw [after_base]; omega)
      rw [iha h hf, open_lacks _ hb, hb, Bool.or_true]; rfl
    · rename_i h
      have ha : lacksG (grp named (base named st + k)) (a.tree x st) = true := tree_lacks named a (by right; omega)
      have := ihb (st := a.after st) (k := k - a.count named) (by omega) hf
      rw [after_base, show base named st + a.count named + (k - a.count named) = base named st + k by omega] at this
      rw [this, open_lacks _ ha, ha]; rfl
  | alt a b iha ihb =>
    intro st k hk hf
    rw [Re.count] at hk
    rw [Re.free] at hf
    rw [Re.tree, openG, openGN, lacksGN]
    split at hf
    · rename_i h
      have hb : lacksG (grp named (base named st + k)) (b.tree x (a.after st)) = true := tree_lacks named b (by left; rw [after_base]; omega)
      rw [iha h hf, open_lacks _ hb, hb, Bool.or_true]; rfl
    · rename_i h
      have ha : lacksG (grp named (base named st + k)) (a.tree x st) = true := tree_lacks named a (by right; omega)
      have := ihb (st := a.after st) (k := k - a.count named) (by omega) hf
      rw [after_base, show base named st + a.count named + (k - a.count named) = base named st + k by omega] at this
      rw [this, open_lacks _ ha, ha]; rfl
  | _ => intro st k hk; exact absurd hk (by simp [Re.count])

/-! ## The ways of the tree -/

theorem tree_caps {x : Ctx} {env : Env} (he : SpecOk env) (named : Bool) (e : Re) : ∀ {il : Bool} {st : CState} {u : Text} {k : Nat}, e.Ok x st u →
    e.frag il = true → k < e.count named → e.free named k = true → ∀ p, 0 ≤ p → p ≤ env.stop →
    caps env (grp named (base named st + k)) (e.tree x st) p = e.ways x env named k p := by
  induction e with
  | group a ih =>
    intro il st u k h hf hk hfr p h0 h1
    rw [Re.tree, caps_one rfl, capsN, Re.ways]
    rw [Re.count] at hk
    rw [Re.free] at hfr
    cases named with
    | true =>
      rw [if_pos (by simp [notNum, Grp.hasNum, grp]), if_pos (show true = true from rfl)]
      exact ih h.2 hf (by simpa using hk) (by simpa using hfr) p h0 h1
    | false =>
      rw [if_neg (show ¬ (false = true) from Bool.false_ne_true)]
      by_cases hz : k = 0
      · subst hz
        rw [if_neg (by simp [notNum, Grp.hasNum, grp, base]), if_pos rfl, tree_ends he a h.2 hf p h0 h1]
      · have := ih h.2 hf (k := k - 1) (by simp at hk; omega) (by simpa [hz] using hfr) p h0 h1
        rw [base_group] at this
        have e1 : base false st + (if false = true then 0 else 1) + (k - 1) = base false st + k := by simp; omega
        rw [e1] at this
        rw [if_pos (by simp [notNum, Grp.hasNum, grp, base]; omega), if_neg hz]
        exact this
  | named n a ih =>
    intro il st u k h hf hk hfr p h0 h1
    rw [Re.tree, caps_one rfl, capsN, Re.ways]
    rw [Re.count] at hk
    rw [Re.free] at hfr
    cases named with
    | false =>
      rw [if_pos (by simp [notName, grp]), if_neg (show ¬ (false = true) from Bool.false_ne_true)]
      exact ih h.2.2.2 hf (by simpa using hk) (by simpa using hfr) p h0 h1
    | true =>
      rw [if_pos (show true = true from rfl)]
      by_cases hz : k = 0
      · subst hz
        rw [if_neg (by simp [notName, grp, base]), if_pos rfl, tree_ends he a h.2.2.2 hf p h0 h1]
      · have := ih h.2.2.2 hf (k := k - 1) (by simp at hk; omega) (by simpa [hz] using hfr) p h0 h1
        rw [base_named] at this
        have e1 : base true st + (if true = true then 1 else 0) + (k - 1) = base true st + k := by simp; omega
        rw [e1] at this
        rw [if_pos (by simp [notName, grp, base]; omega), if_neg hz]
        exact this
  | bare a ih =>
    intro il st u k h hf hk hfr p h0 h1
    rw [Re.tree, caps_one rfl, capsN, if_pos (show notName _ none = true from rfl), Re.ways]
    exact ih h hf hk hfr p h0 h1
  | cat a b iha ihb =>
    intro il st u k h hf hk hfr p h0 h1
    obtain ⟨k1, k2, k3, k4⟩ := h
    simp only [Re.frag, Bool.and_eq_true] at hf
    rw [Re.count] at hk
    rw [Re.free] at hfr
    rw [Re.tree, caps_append env _ _ _ (tree_noOr a k3 k1), Re.ways]
    split at hfr
    · rename_i h
      rw [if_pos h, ← iha k3 hf.1 h hfr p h0 h1]
      refine flatMap_congr fun v hv => ?_
      have hm : v.1 ∈ ends env (a.tree x st) p := by rw [← caps_fst env _ _ p]; exact List.mem_map_of_mem hv
      have hw := ends_fwd he.ok _ p v.1 h0 h1 hm
      rw [caps_lacks env _ _ _ (tree_lacks named b (by left; rw [after_base]; omega)), tree_ends he b k4 hf.2 v.1 (by omega) hw.2]
      simp [outside, Function.comp_def]
    · rename_i h
      rw [if_neg h, caps_lacks env _ _ _ (tree_lacks named a (by right; omega)), outside, List.flatMap_map, tree_ends he a k3 hf.1 p h0 h1]
      refine flatMap_congr fun r hr => ?_
      rw [← tree_ends he a k3 hf.1 p h0 h1] at hr
      have hw := ends_fwd he.ok _ p r h0 h1 hr
      have := ihb (st := a.after st) (k := k - a.count named) k4 hf.2 (by omega) hfr r (by omega) hw.2
      rw [after_base, show base named st + a.count named + (k - a.count named) = base named st + k by omega] at this
      simp only [this, Option.or_none]
      simp
  | alt a b iha ihb =>
    intro il st u k h hf hk hfr p h0 h1
    obtain ⟨k1, k3, k4⟩ := h
    simp only [Re.frag, Bool.and_eq_true] at hf
    rw [Re.count] at hk
    rw [Re.free] at hfr
    have ho : isOr (.or (a.tree x st)) = true := rfl
    rw [Re.tree, caps, ho, if_pos rfl, capsN, Re.ways]
    split at hfr
    · rename_i h
      rw [if_pos h, iha k3 hf.1 h hfr p h0 h1, caps_lacks env _ _ _ (tree_lacks named b (by left; rw [after_base]; omega)),
        tree_ends he b k4 hf.2 p h0 h1]
      rfl
    · rename_i h
      have := ihb (st := a.after st) (k := k - a.count named) k4 hf.2 (by omega) hfr p h0 h1
      rw [after_base, show base named st + a.count named + (k - a.count named) = base named st + k by omega] at this
      rw [if_neg h, this, caps_lacks env _ _ _ (tree_lacks named a (by right; omega)), tree_ends he a k3 hf.1 p h0 h1]
      rfl
  | post a o ih =>
    intro il st u k h hf hk hfr p h0 h1
    obtain ⟨k1, k2, k3⟩ := h
    obtain ⟨il', hfa⟩ := op_frag hf
    rw [Re.free, Bool.and_eq_true] at hfr
    have hs := ih k2 hfa hk hfr.2
    rw [Re.tree, caps_one (op_isOp o _).2.1, Re.ways]
    cases o with
    | maybe z => cases z <;> simp [Op.node, capsN, Op.ways, hs p h0 h1]
    | ahead => simp only [Op.node, capsN, Op.ways, hs p h0 h1]
    | behind d =>
      simp only [Op.node, capsN, Op.ways]
      by_cases hd : p < d
      · rw [if_pos hd, if_pos (by omega)]
      · rw [if_neg hd, if_neg (by omega), hs _ (by omega) (by omega)]
    | many _ | many1 _ | exactly _ _ | atLeast _ _ | between _ _ _ | nahead | nbehind _ => cases hfr.1
  | _ => intro il st u k h hf hk; exact absurd hk (by simp [Re.count])

/-! ## What the ways are -/

theorem op_ways_fst {α : Type} {f : Int → List (Int × Option α)} {f' : Int → List Int} {left : Int → Nat} {o : Op} (ho : o.once = true) (h : ∀ p, (f p).map Prod.fst = f' p)
    (p : Int) : (o.ways f p).map Prod.fst = o.ends left f' p := by
  cases o with
  | maybe z =>
    have := quest_ends f' z p
    simp only [Int.toNat_zero, times, Int.sub_zero, Int.toNat_one, List.flatMap_cons, List.flatMap_nil, List.append_nil] at this
    rw [Op.ends, this, Op.ways, ← h p]
    cases z <;> simp
  | ahead => rw [Op.ways, Op.ends]; exact look_fst (h p) p
  | behind d =>
    rw [Op.ways, Op.ends]
    split
    · rfl
    · exact look_fst (h (p - d)) p
  | many _ | many1 _ | exactly _ _ | atLeast _ _ | between _ _ _ | nahead | nbehind _ => cases ho

/-- the ways are those of `Re.ends` -/
theorem C80_the_ways_are_the_matches (x : Ctx) (env : Env) (named : Bool) (e : Re) :
    ∀ k, k < e.count named → e.free named k = true → ∀ p, (e.ways x env named k p).map Prod.fst = e.ends x env p := by
  induction e with
  | group a ih =>
    intro k hk hf p
    rw [Re.count] at hk
    rw [Re.free] at hf
    rw [Re.ways, Re.ends]
    cases named with
    | true => exact ih k (by simpa using hk) (by simpa using hf) p
    | false =>
      simp only [Bool.false_eq_true, if_false] at hk hf ⊢
      split
      · simp [Function.comp_def]
      · rename_i hz
        exact ih (k - 1) (by omega) (by simpa [hz] using hf) p
  | named n a ih =>
    intro k hk hf p
    rw [Re.count] at hk
    rw [Re.free] at hf
    rw [Re.ways, Re.ends]
    cases named with
    | false => exact ih k (by simpa using hk) (by simpa using hf) p
    | true =>
      simp only [if_true] at hk hf ⊢
      split
      · simp [Function.comp_def]
      · rename_i hz
        exact ih (k - 1) (by omega) (by simpa [hz] using hf) p
  | bare a ih => intro k hk hf p; rw [Re.ways, Re.ends]; exact ih k hk hf p
  | cat a b iha ihb =>
    intro k hk hf p
    rw [Re.count] at hk
    rw [Re.free] at hf
    rw [Re.ways, Re.ends]
    split at hf
    · rename_i h
      rw [if_pos h, ← iha k h hf p, List.map_flatMap, List.flatMap_map]
      exact flatMap_congr fun v _ => by simp [Function.comp_def]
    · rename_i h
      rw [if_neg h, List.map_flatMap]
      exact flatMap_congr fun r _ => ihb _ (by omega) hf r
  | alt a b iha ihb =>
    intro k hk hf p
    rw [Re.count] at hk
    rw [Re.free] at hf
    rw [Re.ways, Re.ends]
    split at hf
    · rename_i h
      rw [if_pos h, List.map_append, iha k h hf p]
      simp [Function.comp_def]
    · rename_i h
      rw [if_neg h, List.map_append, ihb _ (by omega) hf p]
      simp [Function.comp_def]
  | post a o ih =>
    intro k hk hf p
    rw [Re.free, Bool.and_eq_true] at hf
    rw [Re.ways, Re.ends]
    exact op_ways_fst hf.1 (ih k hk hf.2) p
  | _ => intro k hk; exact absurd hk (by simp [Re.count])

theorem ends_L {x : Ctx} {env : Env} (he : SpecOk env) {e : Re} {il : Bool} {st : CState} {u : Text} (h : e.Ok x st u) (hf : e.frag il = true) {p q : Int}
    (h0 : 0 ≤ p) (h1 : p ≤ env.stop) (hq : q ∈ e.ends x env p) : e.L x env p q ∧ p ≤ q ∧ q ≤ env.stop := by
  rw [← tree_ends he e h hf p h0 h1] at hq
  have hw := ends_fwd he.ok _ p q h0 h1 hq
  rw [mem_ends he _ il (tree_frag e h hf) p q h0 h1, tree_L e h] at hq
  exact ⟨hq, by omega, hw.2⟩

theorem op_ways_mem {α : Type} {f : Int → List (Int × Option α)} {o : Op} {p : Int} {v : Int × Option α} {i : α} (hv : v ∈ o.ways f p) (hj : v.2 = some i) :
    ∃ p' v', p' ≤ p ∧ (0 ≤ p → 0 ≤ p') ∧ v' ∈ f p' ∧ v'.2 = some i := by
  cases o with
  | maybe z =>
    rw [Op.ways] at hv
    refine ⟨p, v, Int.le_refl _, id, ?_, hj⟩
    cases z with
    | true =>
      rw [if_pos rfl, List.mem_cons] at hv
      rcases hv with rfl | hv
      · cases hj
      · exact hv
    | false =>
      simp only [Bool.false_eq_true, if_false, List.mem_append, List.mem_singleton] at hv
      rcases hv with hv | rfl
      · exact hv
      · cases hj
  | ahead =>
    rw [Op.ways] at hv
    simp only [List.mem_map, Option.mem_toList, Option.mem_def] at hv
    obtain ⟨w, hw, rfl⟩ := hv
    exact ⟨p, w, Int.le_refl _, id, List.mem_of_mem_head? hw, hj⟩
  | behind d =>
    rw [Op.ways] at hv
    split at hv
    · cases hv
    · simp only [List.mem_map, Option.mem_toList, Option.mem_def] at hv
      obtain ⟨w, hw, rfl⟩ := hv
      exact ⟨p - d, w, by omega, by omega, List.mem_of_mem_head? hw, hj⟩
  | many _ | many1 _ | exactly _ _ | atLeast _ _ | between _ _ _ | nahead | nbehind _ => rw [Op.ways] at hv; cases hv

theorem ways_sub {x : Ctx} {env : Env} (he : SpecOk env) (named : Bool) (e : Re) : ∀ {il : Bool} {st : CState} {u : Text} {k : Nat}, e.Ok x st u →
    e.frag il = true → k < e.count named → e.free named k = true → ∀ p, 0 ≤ p → p ≤ env.stop → ∀ v i j, v ∈ e.ways x env named k p →
    v.2 = some (i, j) → ∃ a, e.sub named k = some a ∧ a.L x env i j ∧ 0 ≤ i ∧ i ≤ j ∧ j ≤ env.stop := by
  induction e with
  | group a ih =>
    intro il st u k h hf hk hfr p h0 h1 v i j hv hj
    rw [Re.count] at hk
    rw [Re.free] at hfr
    rw [Re.ways] at hv
    rw [Re.sub]
    cases named with
    | true =>
      simp only [if_true] at hk hfr hv ⊢
      exact ih h.2 hf (by omega) hfr p h0 h1 v i j hv hj
    | false =>
      simp only [Bool.false_eq_true, if_false] at hk hfr hv ⊢
      by_cases hz : k = 0
      · rw [if_pos hz] at hv ⊢
        obtain ⟨q, hq, rfl⟩ := List.mem_map.1 hv
        cases hj
        have := ends_L he h.2 hf h0 h1 hq
        exact ⟨a, rfl, this.1, h0, this.2.1, this.2.2⟩
      · rw [if_neg hz] at hv ⊢
        exact ih h.2 hf (by omega) (by simpa [hz] using hfr) p h0 h1 v i j hv hj
  | named n a ih =>
    intro il st u k h hf hk hfr p h0 h1 v i j hv hj
    rw [Re.count] at hk
    rw [Re.free] at hfr
    rw [Re.ways] at hv
    rw [Re.sub]
    cases named with
    | false =>
      simp only [Bool.false_eq_true, if_false] at hk hfr hv ⊢
      exact ih h.2.2.2 hf (by omega) hfr p h0 h1 v i j hv hj
    | true =>
      simp only [if_true] at hk hfr hv ⊢
      by_cases hz : k = 0
      · rw [if_pos hz] at hv ⊢
        obtain ⟨q, hq, rfl⟩ := List.mem_map.1 hv
        cases hj
        have := ends_L he h.2.2.2 hf h0 h1 hq
        exact ⟨a, rfl, this.1, h0, this.2.1, this.2.2⟩
      · rw [if_neg hz] at hv ⊢
        exact ih h.2.2.2 hf (by omega) (by simpa [hz] using hfr) p h0 h1 v i j hv hj
  | bare a ih => intro il st u k h hf hk hfr p h0 h1 v i j hv hj; exact ih h hf hk hfr p h0 h1 v i j hv hj
  | cat a b iha ihb =>
    intro il st u k h hf hk hfr p h0 h1 v i j hv hj
    obtain ⟨k1, k2, k3, k4⟩ := h
    simp only [Re.frag, Bool.and_eq_true] at hf
    rw [Re.count] at hk
    rw [Re.free] at hfr
    rw [Re.ways] at hv
    rw [Re.sub]
    by_cases hc : k < a.count named
    · rw [if_pos hc] at hfr hv ⊢
      obtain ⟨w, hw, hv⟩ := List.mem_flatMap.1 hv
      obtain ⟨q, hq, rfl⟩ := List.mem_map.1 hv
      exact iha k3 hf.1 hc hfr p h0 h1 w i j hw hj
    · rw [if_neg hc] at hfr hv ⊢
      obtain ⟨r, hr, hv⟩ := List.mem_flatMap.1 hv
      have := ends_L he k3 hf.1 h0 h1 hr
      exact ihb k4 hf.2 (by omega) hfr r (by omega) this.2.2 v i j hv hj
  | alt a b iha ihb =>
    intro il st u k h hf hk hfr p h0 h1 v i j hv hj
    obtain ⟨k1, k3, k4⟩ := h
    simp only [Re.frag, Bool.and_eq_true] at hf
    rw [Re.count] at hk
    rw [Re.free] at hfr
    rw [Re.ways] at hv
    rw [Re.sub]
    by_cases hc : k < a.count named
    · rw [if_pos hc] at hfr hv ⊢
      rcases List.mem_append.1 hv with hv | hv
      · exact iha k3 hf.1 hc hfr p h0 h1 v i j hv hj
      · obtain ⟨q, hq, rfl⟩ := List.mem_map.1 hv
        cases hj
    · rw [if_neg hc] at hfr hv ⊢
      rcases List.mem_append.1 hv with hv | hv
      · obtain ⟨q, hq, rfl⟩ := List.mem_map.1 hv
        cases hj
      · exact ihb k4 hf.2 (by omega) hfr p h0 h1 v i j hv hj
  | post a o ih =>
    intro il st u k h hf hk hfr p h0 h1 v i j hv hj
    obtain ⟨k1, k2, k3⟩ := h
    obtain ⟨il', hfa⟩ := op_frag hf
    rw [Re.free, Bool.and_eq_true] at hfr
    rw [Re.ways] at hv
    rw [Re.sub]
    obtain ⟨p', v', hp', hp0, hv', hj'⟩ := op_ways_mem hv hj
    exact ih k2 hfa hk hfr.2 p' (hp0 h0) (by omega) v' i j hv' hj'
  | _ => intro il st u k h hf hk; exact absurd hk (by simp [Re.count])

theorem first_in {x : Ctx} {env : Env} {e : Re} {n : Nat} {p s t : Int} (h : e.first x env n p = some (s, t)) : p ≤ s ∧ s ≤ p + n := by
  induction n generalizing p with
  | zero =>
    rw [Re.first] at h
    cases hh : (e.ends x env p).head? <;> rw [hh] at h <;> simp at h
    omega
  | succ n ih =>
    rw [Re.first] at h
    cases hh : (e.ends x env p).head? <;> rw [hh] at h
    · have := ih h; omega
    · simp at h; omega

/-! ## The theorem -/

/-- where the groups are kept: the whole match is 0, so the `k`-th numbered group is `k + 1`; the `k`-th named one is `k` -/
def Matches.held (m : Matches) : Bool → Nat → Int × Int
  | false, k => (m.s (k + 1), m.e (k + 1))
  | true, k => (m.ns k, m.ne k)

/-- C80: what a group holds. Under the conditions of `C56_the_preferred_match_partial`, for a group outside repetitions (other than `?`, `??`) and negative
look-arounds: after a match from `s` to `t`, if the preferred way of the match passed the group from `i` to `j` then the group holds `[i, j)`, and the
text from `i` to `j` is matched by what is written in the group. Whatever was tried before, in this call or an earlier one. -/
theorem C80_groups_hold_what_they_matched_partial {x : Ctx} (hx : CtxOk x) (chars : Chars) {sp fl : Text} {e : Re} (hsp : ∀ c ∈ sp, x.isSpace c = true)
    (hfl : 47 ∉ fl) (hok : e.Ok (x.withFlags fl) ⟨1, []⟩ []) (hfr : e.frag false = true) (hm : 109 ∉ fl)
    {named : Bool} {k : Nat} (hk : k < e.count named) (hfree : e.free named k = true) :
    ∃ ex, setRE x (written sp e fl) = some (.ok ex) ∧
      ∀ (o : Obj) (a : Args) (mtch : Matches), 0 ≤ a.pos → a.pos ≤ a.eol → a.eol ≤ a.text.length → TraceOk a.back →
        (105 ∈ fl → CaseOn chars (fun c => c ∈ a.text ∨ c ∈ e.letters)) →
      ∃ n, ∀ fuel, n ≤ fuel → ∃ out, parse chars ex fuel o a mtch = some out ∧
        ∀ s t, e.first (x.withFlags fl) (envOf chars ex a) (if a.moves.getD o.moves then (a.eol - a.pos).toNat else 0) a.pos = some (s, t) →
          out.res = .ret true ∧ (e.noMark = true → o.startChange = false → o.endChange = false → out.m.s 0 = s ∧ out.m.e 0 = t) ∧
          ∀ i j, (e.ways (x.withFlags fl) (envOf chars ex a) named k s).head? = some (t, some (i, j)) →
            out.m.held named k = (i, j) ∧ 0 ≤ i ∧ i ≤ j ∧ j ≤ a.eol ∧
            ∃ b, e.sub named k = some b ∧ b.L (x.withFlags fl) (envOf chars ex a) i j := by
  obtain ⟨body, hp, h⟩ := setRE_written hx hsp hfl hok
  refine ⟨_, h, fun o a mtch h0 h1 h2 hb hic => ?_⟩
  generalize hex : Expr.mk body (e.after ⟨1, []⟩).cMatch (e.after ⟨1, []⟩).names.length ⟨fl.contains 105, fl.contains 115, fl.contains 109⟩ true = ex
    at h ⊢
  have hbody : ex.body = body := by rw [← hex]
  have hflags : ex.flags = ⟨fl.contains 105, fl.contains 115, fl.contains 109⟩ := by rw [← hex]
  have hlet : letters ex.body = e.letters := by rw [hbody, ← letters_plain, hp, letters_plain, tree_letters]
  have hic' : ex.flags.ignoreCase = true → CaseOn chars (fun c => c ∈ a.text ∨ c ∈ letters ex.body) := by
    rw [hflags, hlet]
    intro h
    exact hic (by simpa using h)
  have hcb : CaseFor (envOf chars ex a) (letters body) := by rw [← hbody]; exact hic'
  have hct : CaseFor (envOf chars ex a) (letters (e.tree (x.withFlags fl) ⟨1, []⟩)) := by rw [tree_letters, ← hlet]; exact hic'
  have hfr' : inFrag false ex.body = true := by
    rw [hbody, ← inFrag_plain, hp, inFrag_plain]
    exact tree_frag e hok hfr
  have hml : ex.flags.multiLine = false := by rw [hflags]; simpa using hm
  have he : SpecOk (envOf chars ex a) := ⟨⟨Int.le_refl _, h2, hb⟩, hml⟩
  have hends : ∀ p, 0 ≤ p → p ≤ (envOf chars ex a).stop → RegExp.ends (envOf chars ex a) ex.body p = e.ends (x.withFlags fl) (envOf chars ex a) p := by
    intro p hp0 hp1
    rw [← tree_ends he e hok hfr p hp0 hp1, hbody, ← ends_plain he body hcb p hp0 hp1, hp,
      ends_plain he _ hct p hp0 hp1]
  have hcaps : ∀ p, 0 ≤ p → p ≤ (envOf chars ex a).stop → caps (envOf chars ex a) (grp named (base named ⟨1, []⟩ + k)) ex.body p =
      e.ways (x.withFlags fl) (envOf chars ex a) named k p := by
    intro p hp0 hp1
    rw [← tree_caps he named e hok hfr hk hfree p hp0 hp1, hbody, ← caps_plain he _ body hcb p hp0 hp1, hp,
      caps_plain he _ _ hct p hp0 hp1]
  have hopen : openG (grp named (base named ⟨1, []⟩ + k)) ex.body = true := by
    rw [hbody, ← openG_plain, hp, openG_plain]
    exact tree_open named e hk hfree
  have hg : grp named (base named ⟨1, []⟩ + k) ≠ .num 0 := by
    cases named <;> simp [grp, base] <;> omega
  obtain ⟨n, hn'⟩ := parse_group chars ex o a mtch (by rw [← hex]) hfr' hg hopen hml hic' h0 h1 h2 hb
  refine ⟨n, fun fuel hf => ?_⟩
  obtain ⟨out, ho, hr, hw⟩ := hn' fuel hf
  have e1 := first_eq hends (if a.moves.getD o.moves then (a.eol - a.pos).toNat else 0) a.pos h0 (by show _ ≤ a.eol; split <;> omega)
  rw [e1] at hr hw
  refine ⟨out, ho, fun s t hF => ?_⟩
  rw [hF] at hr
  have hle := firstMatch_le he.ok ex.body _ h0 (by show _ ≤ a.eol; split <;> omega) (e1.trans hF)
  obtain ⟨⟨w1, w2, -⟩, w3⟩ := hw s t hF
  have hb : 0 ≤ s ∧ s ≤ a.eol := by
    have := first_in hF
    have h3 : (0 : Int) ≤ a.pos := h0
    constructor
    · omega
    · have := this.2
      split at this <;> omega
  refine ⟨hr, fun hnm hs hn => ?_, fun i j hi => ?_⟩
  · have hnm' : RegExp.noMark ex.body = true := by rw [hbody, ← noMark_plain, hp, noMark_plain, tree_noMark e, hnm]
    obtain ⟨f1, f2, -⟩ := parse_marks hnm' ho
    have e := w1 (f2.trans hn)
    have := w2 (f1.trans hs)
    omega
  have hsub := ways_sub he named e hok hfr hk hfree s hb.1 hb.2 _ i j (List.mem_of_mem_head? hi) rfl
  obtain ⟨b, hb1, hb2, hb3, hb4, hb5⟩ := hsub
  have hpl := w3 i j (by rw [hcaps s hb.1 hb.2]; exact hi)
  refine ⟨?_, hb3, hb4, hb5, b, hb1, hb2⟩
  cases named with
  | true => simpa [Held, Matches.held, grp, base] using hpl
  | false => simpa [Held, Matches.held, grp, base, Nat.add_comm] using hpl

end Verif.RegExp
