import Verif.RegExp.GroupsWritten
import Verif.RegExp.Marks

/-!
# The marks of a written expression (C81)

`\m` sets the beginning of the match reported, `\M` (`stop = true`) its end. `Re.passes`: the ways a match of a written expression from a position
on may go, the preferred one first: where each ends, and where it passed the mark (`none`: it did not).
-/
namespace Verif.RegExp

/-- `\m`, or `\M` -/
def markOf : Bool → Meta
  | false => .start
  | true => .stop

/-- how often the mark is written -/
def Re.marks (stop : Bool) : Re → Nat
  | .sym m => if m = markOf stop then 1 else 0
  | .group a | .bare a | .named _ a | .post a _ => a.marks stop
  | .cat a b | .alt a b => a.marks stop + b.marks stop
  | .eps | .space _ | .chr _ | .ctl _ | .cls _ _ | .trace _ | .traceN _ | .traceName _ | .ref _ | .refName _ => 0

/-- the mark is not written inside a repetition (other than `?` and `??`) or a negative look-around -/
def Re.markFree (stop : Bool) : Re → Bool
  | .post a o => decide (a.marks stop = 0) || o.once && a.markFree stop
  | .group a | .bare a | .named _ a => a.markFree stop
  | .cat a b | .alt a b => a.markFree stop && b.markFree stop
  | .sym _ | .eps | .space _ | .chr _ | .ctl _ | .cls _ _ | .trace _ | .traceN _ | .traceName _ | .ref _ | .refName _ => true

/-- a way that passes no mark -/
def noPass (l : List Int) : List (Int × Option Int) := l.map fun q => (q, none)

/-- the ways from a position on, the preferred one first, each with the place where it passed the mark last (for a mark that is free) -/
noncomputable def Re.passes (x : Ctx) (env : Env) (stop : Bool) : Re → Int → List (Int × Option Int)
  | .sym m, p => if m = markOf stop then [(p, some p)] else noPass ((Re.sym m).ends x env p)
  | .group a, p | .bare a, p | .named _ a, p => a.passes x env stop p
  | .cat a b, p => (a.passes x env stop p).flatMap fun v => (b.passes x env stop v.1).map fun w => (w.1, w.2.or v.2)
  | .alt a b, p => a.passes x env stop p ++ b.passes x env stop p
  | .post a o, p => if a.marks stop = 0 then noPass ((Re.post a o).ends x env p) else o.ways (a.passes x env stop) p
  | .eps, p => noPass (Re.eps.ends x env p)
  | .space c, p => noPass ((Re.space c).ends x env p)
  | .chr c, p => noPass ((Re.chr c).ends x env p)
  | .ctl c, p => noPass ((Re.ctl c).ends x env p)
  | .cls n k, p => noPass ((Re.cls n k).ends x env p)
  | .trace c, p => noPass ((Re.trace c).ends x env p)
  | .traceN c, p => noPass ((Re.traceN c).ends x env p)
  | .traceName n, p => noPass ((Re.traceName n).ends x env p)
  | .ref d, p => noPass ((Re.ref d).ends x env p)
  | .refName n, p => noPass ((Re.refName n).ends x env p)

theorem noPass_fst (l : List Int) : (noPass l).map Prod.fst = l := by simp [noPass, Function.comp_def]

/-- the ways are those of `Re.ends` -/
theorem C81_the_ways_are_the_matches (x : Ctx) (env : Env) (stop : Bool) (e : Re) : e.markFree stop = true → ∀ p, (e.passes x env stop p).map Prod.fst = e.ends x env p := by
  induction e with
  | sym m =>
    intro _ p
    rw [Re.passes]
    split
    · rename_i h
      subst h
      have hL : ∀ q, Re.L x env (.sym (markOf stop)) p q ↔ q = p := by intro q; cases stop <;> exact Iff.rfl
      refine le_one_eq (by simp) (by rw [Re.ends]; exact one_le _ _) fun q => ?_
      rw [Re.ends, one_mem (fun q q' h h' => ((hL q).1 h).trans ((hL q').1 h').symm) q, hL]
      simp
    · exact noPass_fst _
  | group a ih | bare a ih | named n a ih => intro h p; exact ih h p
  | cat a b iha ihb =>
    intro h p
    rw [Re.markFree, Bool.and_eq_true] at h
    rw [Re.passes, Re.ends, ← iha h.1 p, List.map_flatMap, List.flatMap_map]
    exact flatMap_congr fun v _ => by rw [← ihb h.2 v.1, List.map_map]; rfl
  | alt a b iha ihb =>
    intro h p
    rw [Re.markFree, Bool.and_eq_true] at h
    rw [Re.passes, Re.ends, List.map_append, iha h.1 p, ihb h.2 p]
  | post a o ih =>
    intro h p
    rw [Re.passes]
    split
    · exact noPass_fst _
    · rename_i hz
      rw [Re.markFree] at h
      simp only [hz, decide_false, Bool.false_or, Bool.and_eq_true] at h
      rw [Re.ends]
      exact op_ways_fst h.1 (ih h.2) p
  | _ => intro _ p; rw [Re.passes]; exact noPass_fst _

/-- a repetition -/
def Op.repeats : Op → Bool
  | .ahead | .behind _ | .nahead | .nbehind _ => false
  | .many _ | .many1 _ | .maybe _ | .exactly _ _ | .atLeast _ _ | .between _ _ _ => true

/-- no look-around -/
def Re.noAround : Re → Bool
  | .post a o => a.noAround && o.repeats
  | .group a | .bare a | .named _ a => a.noAround
  | .cat a b | .alt a b => a.noAround && b.noAround
  | .sym _ | .eps | .space _ | .chr _ | .ctl _ | .cls _ _ | .trace _ | .traceN _ | .traceName _ | .ref _ | .refName _ => true

theorem noPass_snd {l : List Int} {v : Int × Option Int} {i : Int} (h : v ∈ noPass l) (hi : v.2 = some i) : False := by
  obtain ⟨q, -, rfl⟩ := List.mem_map.1 h
  cases hi

/-- a mark is passed inside the match, if there are no look-arounds -/
theorem C81_marks_are_passed_inside_the_match {x : Ctx} {env : Env} (he : SpecOk env) (stop : Bool) (e : Re) : ∀ {il : Bool} {st : CState} {u : Text},
    e.Ok x st u → e.frag il = true → e.markFree stop = true → e.noAround = true → ∀ p, 0 ≤ p → p ≤ env.stop → ∀ t i,
    (t, some i) ∈ e.passes x env stop p → p ≤ i ∧ i ≤ t := by
  induction e with
  | sym m =>
    intro il st u h hf hfr hl p h0 h1 t i hv
    rw [Re.passes] at hv
    split at hv
    · simp only [List.mem_singleton, Prod.mk.injEq, Option.some.injEq] at hv
      omega
    · exact (noPass_snd hv rfl).elim
  | group a ih => intro il st u h hf hfr hl p h0 h1 t i hv; exact ih h.2 hf hfr hl p h0 h1 t i hv
  | named n a ih => intro il st u h hf hfr hl p h0 h1 t i hv; exact ih h.2.2.2 hf hfr hl p h0 h1 t i hv
  | bare a ih => intro il st u h hf hfr hl p h0 h1 t i hv; exact ih h hf hfr hl p h0 h1 t i hv
  | cat a b iha ihb =>
    intro il st u h hf hfr hl p h0 h1 t i hv
    obtain ⟨k1, k2, k3, k4⟩ := h
    simp only [Re.frag, Bool.and_eq_true] at hf
    rw [Re.markFree, Bool.and_eq_true] at hfr
    rw [Re.noAround, Bool.and_eq_true] at hl
    rw [Re.passes] at hv
    obtain ⟨v, hv1, hv2⟩ := List.mem_flatMap.1 hv
    obtain ⟨w, hw1, hw2⟩ := List.mem_map.1 hv2
    obtain ⟨r, y⟩ := v
    obtain ⟨t', z⟩ := w
    simp only [Prod.mk.injEq] at hw2
    obtain ⟨rfl, hw2⟩ := hw2
    have hr : r ∈ a.ends x env p := by rw [← C81_the_ways_are_the_matches x env stop a hfr.1 p]; exact List.mem_map_of_mem hv1
    have hr := ends_L he k3 hf.1 h0 h1 hr
    have ht : t' ∈ b.ends x env r := by rw [← C81_the_ways_are_the_matches x env stop b hfr.2 r]; exact List.mem_map_of_mem hw1
    have ht := ends_L he k4 hf.2 (by omega) hr.2.2 ht
    cases z with
    | some j =>
      simp only [Option.some_or, Option.some.injEq] at hw2
      subst hw2
      have := ihb k4 hf.2 hfr.2 hl.2 r (by omega) hr.2.2 _ _ hw1
      omega
    | none =>
      simp only [Option.none_or] at hw2
      subst hw2
      have := iha k3 hf.1 hfr.1 hl.1 p h0 h1 _ _ hv1
      omega
  | alt a b iha ihb =>
    intro il st u h hf hfr hl p h0 h1 t i hv
    obtain ⟨k1, k3, k4⟩ := h
    simp only [Re.frag, Bool.and_eq_true] at hf
    rw [Re.markFree, Bool.and_eq_true] at hfr
    rw [Re.noAround, Bool.and_eq_true] at hl
    rw [Re.passes] at hv
    rcases List.mem_append.1 hv with hv | hv
    · exact iha k3 hf.1 hfr.1 hl.1 p h0 h1 t i hv
    · exact ihb k4 hf.2 hfr.2 hl.2 p h0 h1 t i hv
  | post a o ih =>
    intro il st u h hf hfr hl p h0 h1 t i hv
    rw [Re.passes] at hv
    split at hv
    · exact (noPass_snd hv rfl).elim
    · rename_i hz
      obtain ⟨k1, k2, k3⟩ := h
      obtain ⟨il', hfa⟩ := op_frag hf
      rw [Re.markFree] at hfr
      simp only [hz, decide_false, Bool.false_or, Bool.and_eq_true] at hfr
      rw [Re.noAround, Bool.and_eq_true] at hl
      cases o with
      | maybe z =>
        refine ih k2 hfa hfr.2 hl.1 p h0 h1 t i ?_
        cases z <;> simpa [Op.ways] using hv
      | ahead | behind _ | nahead | nbehind _ => cases hl.2
      | many _ | many1 _ | exactly _ _ | atLeast _ _ | between _ _ _ => cases hfr.1
  | _ => intro il st u h hf hfr hl p h0 h1 t i hv; rw [Re.passes] at hv; exact (noPass_snd hv rfl).elim

/-! ## The tree -/

theorem after_pos {e : Re} {st : CState} (h : st.cMatch ≠ 0) : (e.after st).cMatch ≠ 0 := by
  have := after_base false e st
  simp only [base, Bool.false_eq_true, if_false] at this
  omega

theorem isMark_iff (stop : Bool) (m : Meta) : (Grp.mark stop).isMark m = decide (m = markOf stop) := by
  cases stop <;> cases m <;> rfl

theorem tree_lacks_mark {x : Ctx} (stop : Bool) (e : Re) : ∀ {st : CState}, st.cMatch ≠ 0 → e.marks stop = 0 → lacksG (.mark stop) (e.tree x st) = true := by
  induction e with
  | sym m =>
    intro st _ h
    rw [Re.tree, lacksG_one, lacksGN, isMark_iff]
    rw [Re.marks] at h
    split at h
    · cases h
    · rename_i hm; simp [hm]
  | group a ih =>
    intro st h0 h
    rw [Re.tree, lacksG_one, lacksGN, ih (by simp) h]
    simp [notNum, Grp.hasNum, h0]
  | named n a ih => intro st h0 h; rw [Re.tree, lacksG_one, lacksGN, ih (by simpa using h0) h]; rfl
  | bare a ih => intro st h0 h; rw [Re.tree, lacksG_one, lacksGN, ih h0 h]; rfl
  | post a o ih => intro st h0 h; rw [Re.tree, lacksG_one, op_lacks]; exact ih h0 h
  | cat a b iha ihb =>
    intro st h0 h
    rw [Re.marks] at h
    rw [Re.tree, lacksG_append, iha h0 (by omega), ihb (after_pos h0) (by omega)]; rfl
  | alt a b iha ihb =>
    intro st h0 h
    rw [Re.marks] at h
    rw [Re.tree, lacksG, lacksGN, iha h0 (by omega), ihb (after_pos h0) (by omega)]; rfl
  | _ => intro st h0 h; rfl

theorem tree_open_mark {x : Ctx} (stop : Bool) (e : Re) : ∀ {st : CState}, st.cMatch ≠ 0 → e.marks stop ≤ 1 → e.markFree stop = true →
    openG (.mark stop) (e.tree x st) = true := by
  induction e with
  | group a ih =>
    intro st h0 h hf
    rw [Re.tree, openG_one, openGN, if_pos (by simp [notNum, Grp.hasNum, h0])]
    exact ih (by simp) h hf
  | named n a ih =>
    intro st h0 h hf
    rw [Re.tree, openG_one, openGN, if_pos (show notName _ _ = true from rfl)]
    exact ih (by simpa using h0) h hf
  | bare a ih => intro st h0 h hf; rw [Re.tree, openG_one, openGN, if_pos (show notName _ none = true from rfl)]; exact ih h0 h hf
  | post a o ih =>
    intro st h0 h hf
    rw [Re.markFree, Bool.or_eq_true, decide_eq_true_eq, Bool.and_eq_true] at hf
    rcases hf with hf | hf
    · exact open_lacks _ (tree_lacks_mark stop (.post a o) h0 hf)
    · rw [Re.tree, openG_one, op_open hf.1, ih h0 h hf.2, Bool.or_true]
  | cat a b iha ihb =>
    intro st h0 h hf
    rw [Re.marks] at h
    rw [Re.markFree, Bool.and_eq_true] at hf
    rw [Re.tree, openG_iff_append, iha h0 (by omega) hf.1, ihb (after_pos h0) (by omega) hf.2]
    by_cases hz : a.marks stop = 0
    · rw [tree_lacks_mark stop a h0 hz]; rfl
    · rw [tree_lacks_mark stop b (after_pos h0) (by omega), Bool.or_true]; rfl
  | alt a b iha ihb =>
    intro st h0 h hf
    rw [Re.marks] at h
    rw [Re.markFree, Bool.and_eq_true] at hf
    rw [Re.tree, openG, openGN, lacksGN, iha h0 (by omega) hf.1, ihb (after_pos h0) (by omega) hf.2]
    by_cases hz : a.marks stop = 0
    · rw [tree_lacks_mark stop a h0 hz]; rfl
    · rw [tree_lacks_mark stop b (after_pos h0) (by omega), Bool.or_true]; rfl
  | sym m => intro st h0 h hf; rw [Re.tree, openG_one, openGN]
  | _ => intro st h0 h hf; rfl

/-- the way in the tree -/
def wayOf (v : Int × Option Int) : Way := (v.1, v.2.map fun i => (i, 1))

theorem wayOf_noPass (l : List Int) : (noPass l).map wayOf = outside l := by simp [noPass, outside, wayOf, Function.comp_def]

theorem op_ways_map {f : Int → List (Int × Option Int)} (o : Op) (p : Int) : (o.ways f p).map wayOf = o.ways (fun r => (f r).map wayOf) p := by
  cases o with
  | maybe z => cases z <;> simp [Op.ways, wayOf]
  | ahead => simp only [Op.ways]; cases f p <;> simp [wayOf]
  | behind d =>
    simp only [Op.ways]
    split
    · rfl
    · cases f (p - d) <;> simp [wayOf]
  | many _ | many1 _ | exactly _ _ | atLeast _ _ | between _ _ _ | nahead | nbehind _ => rfl

theorem tree_caps_mark {x : Ctx} {env : Env} (he : SpecOk env) (stop : Bool) (e : Re) : ∀ {il : Bool} {st : CState} {u : Text}, e.Ok x st u →
    e.frag il = true → st.cMatch ≠ 0 → e.markFree stop = true → ∀ p, 0 ≤ p → p ≤ env.stop →
    caps env (.mark stop) (e.tree x st) p = (e.passes x env stop p).map wayOf := by
  have leaf : ∀ {e : Re} {il : Bool} {st : CState} {u : Text}, e.Ok x st u → e.frag il = true → st.cMatch ≠ 0 → e.marks stop = 0 → ∀ p, 0 ≤ p → p ≤ env.stop →
      caps env (.mark stop) (e.tree x st) p = (noPass (e.ends x env p)).map wayOf := by
    intro e il st u h hf h0 hz p hp0 hp1
    rw [caps_lacks env _ _ _ (tree_lacks_mark stop e h0 hz), tree_ends he e h hf p hp0 hp1, wayOf_noPass]
  induction e with
  | sym m =>
    intro il st u h hf h0 _ p hp0 hp1
    rw [Re.passes]
    by_cases hm : m = markOf stop
    · rw [if_pos hm, Re.tree, caps_one rfl, capsN, isMark_iff, if_pos (by simp [hm])]
      subst hm
      cases stop <;> rfl
    · rw [if_neg hm]
      exact leaf h hf h0 (by rw [Re.marks, if_neg hm]) p hp0 hp1
  | group a ih =>
    intro il st u h hf h0 hfr p hp0 hp1
    rw [Re.tree, caps_one rfl, capsN, if_pos (by simp [notNum, Grp.hasNum, h0]), Re.passes]
    exact ih h.2 hf (by simp) hfr p hp0 hp1
  | named n a ih =>
    intro il st u h hf h0 hfr p hp0 hp1
    rw [Re.tree, caps_one rfl, capsN, if_pos (show notName _ _ = true from rfl), Re.passes]
    exact ih h.2.2.2 hf (by simpa using h0) hfr p hp0 hp1
  | bare a ih =>
    intro il st u h hf h0 hfr p hp0 hp1
    rw [Re.tree, caps_one rfl, capsN, if_pos (show notName _ none = true from rfl), Re.passes]
    exact ih h hf h0 hfr p hp0 hp1
  | cat a b iha ihb =>
    intro il st u h hf h0 hfr p hp0 hp1
    obtain ⟨k1, k2, k3, k4⟩ := h
    simp only [Re.frag, Bool.and_eq_true] at hf
    rw [Re.markFree, Bool.and_eq_true] at hfr
    rw [Re.tree, caps_append env _ _ _ (tree_noOr a k3 k1), Re.passes, iha k3 hf.1 h0 hfr.1 p hp0 hp1, List.map_flatMap, List.flatMap_map]
    refine flatMap_congr fun v hv => ?_
    have hm : v.1 ∈ a.ends x env p := by rw [← C81_the_ways_are_the_matches x env stop a hfr.1 p]; exact List.mem_map_of_mem hv
    have hw := ends_L he k3 hf.1 hp0 hp1 hm
    show List.map (fun w => (w.1, w.2.or (wayOf v).2)) (caps env _ _ v.1) = _
    rw [ihb k4 hf.2 (after_pos h0) hfr.2 v.1 (by omega) hw.2.2, List.map_map, List.map_map]
    refine List.map_congr_left fun w _ => ?_
    simp only [wayOf, Function.comp]
    cases w.2 <;> cases v.2 <;> rfl
  | alt a b iha ihb =>
    intro il st u h hf h0 hfr p hp0 hp1
    obtain ⟨k1, k3, k4⟩ := h
    simp only [Re.frag, Bool.and_eq_true] at hf
    rw [Re.markFree, Bool.and_eq_true] at hfr
    have ho : isOr (.or (a.tree x st)) = true := rfl
    rw [Re.tree, caps, ho, if_pos rfl, capsN, Re.passes, iha k3 hf.1 h0 hfr.1 p hp0 hp1, ihb k4 hf.2 (after_pos h0) hfr.2 p hp0 hp1, List.map_append]
  | post a o ih =>
    intro il st u h hf h0 hfr p hp0 hp1
    rw [Re.passes]
    by_cases hz : a.marks stop = 0
    · rw [if_pos hz]
      exact leaf h hf h0 hz p hp0 hp1
    · rw [if_neg hz]
      obtain ⟨k1, k2, k3⟩ := h
      obtain ⟨il', hfa⟩ := op_frag hf
      rw [Re.markFree] at hfr
      simp only [hz, decide_false, Bool.false_or, Bool.and_eq_true] at hfr
      have hs := ih k2 hfa h0 hfr.2
      rw [Re.tree, caps_one (op_isOp o _).2.1, op_ways_map]
      cases o with
      | maybe z => cases z <;> simp [Op.node, capsN, Op.ways, hs p hp0 hp1]
      | ahead => simp only [Op.node, capsN, Op.ways, hs p hp0 hp1]
      | behind d =>
        simp only [Op.node, capsN, Op.ways]
        by_cases hd : p < d
        · rw [if_pos hd, if_pos (by omega)]
        · rw [if_neg hd, if_neg (by omega), hs _ (by omega) (by omega)]
      | many _ | many1 _ | exactly _ _ | atLeast _ _ | between _ _ _ | nahead | nbehind _ => cases hfr.1
  | _ => intro il st u h hf h0 _ p hp0 hp1; rw [Re.passes]; exact leaf h hf h0 rfl p hp0 hp1

mutual
theorem lacksG_lacks (stop : Bool) : ∀ l : List Node, lacksG (.mark stop) l = true → lacks (markOf stop) l = true
  | [], _ => rfl
  | n :: ns, h => by
    rw [lacksG, Bool.and_eq_true] at h
    rw [lacks, lacksGN_lacks stop n h.1, lacksG_lacks stop ns h.2]; rfl
theorem lacksGN_lacks (stop : Bool) : ∀ n : Node, lacksGN (.mark stop) n = true → lacksN (markOf stop) n = true
  | .brackets i b, h => by rw [lacksGN, Bool.and_eq_true] at h; rw [lacksN]; exact lacksG_lacks stop b h.2
  | .named i b, h => by rw [lacksGN, Bool.and_eq_true] at h; rw [lacksN]; exact lacksG_lacks stop b h.2
  | .or b, h => by rw [lacksGN] at h; rw [lacksN]; exact lacksG_lacks stop b h
  | .ahead b, h => by rw [lacksGN] at h; rw [lacksN]; exact lacksG_lacks stop b h
  | .behind _ b, h => by rw [lacksGN] at h; rw [lacksN]; exact lacksG_lacks stop b h
  | .rangeNM _ _ b, h => by rw [lacksGN] at h; rw [lacksN]; exact lacksG_lacks stop b h
  | .ngRangeNM _ _ b, h => by rw [lacksGN] at h; rw [lacksN]; exact lacksG_lacks stop b h
  | .nahead b, h => by rw [lacksGN] at h; rw [lacksN]; exact lacksG_lacks stop b h
  | .nbehind _ b, h => by rw [lacksGN] at h; rw [lacksN]; exact lacksG_lacks stop b h
  | .rangeN _ b, h => by rw [lacksGN] at h; rw [lacksN]; exact lacksG_lacks stop b h
  | .ngRangeN _ b, h => by rw [lacksGN] at h; rw [lacksN]; exact lacksG_lacks stop b h
  | .msym k, h => by
    rw [lacksGN, isMark_iff] at h
    rw [lacksN]
    simpa using h
  | .empty, _ | .symb _, _ | .word _, _ | .enum _, _ | .nenum _, _ | .bkTrace _, _ | .bkTraceN _, _ | .bkTraceName _, _ | .bkTraceNName _, _
  | .bkBrack _, _ | .bkBrackName _, _ => by rw [lacksN]
end

/-! ## The theorem -/

/-- C81: `\m` sets the beginning of the match, `\M` its end. Under the conditions of `C56_success_iff_there_is_a_match_partial`, for an expression with
each mark written once at most, outside repetitions (other than `?`, `??`) and negative look-arounds: after a match whose preferred way goes from `s` to
`t`, the match reported ends where that way passed `\M`, at `t` if none is written; it begins where that way passed `\m`, at `s` if none is written,
but not after its end. Whatever was tried before, in this call or (for a mark that is written) an earlier one. -/
theorem C81_marks_set_the_match_partial {x : Ctx} (hx : CtxOk x) (chars : Chars) {sp fl : Text} {e : Re} (hsp : ∀ c ∈ sp, x.isSpace c = true)
    (hfl : 47 ∉ fl) (hok : e.Ok (x.withFlags fl) ⟨1, []⟩ []) (hfr : e.frag false = true) (hm : 109 ∉ fl)
    (h1m : e.marks false ≤ 1) (h1M : e.marks true ≤ 1) (hfm : e.markFree false = true)
    (hfM : e.markFree true = true) :
    ∃ ex, setRE x (written sp e fl) = some (.ok ex) ∧
      ∀ (o : Obj) (a : Args) (mtch : Matches), 0 ≤ a.pos → a.pos ≤ a.eol → a.eol ≤ a.text.length → TraceOk a.back →
        (105 ∈ fl → CaseOn chars (fun c => c ∈ a.text ∨ c ∈ e.letters)) →
      ∃ n, ∀ fuel, n ≤ fuel → ∃ out, parse chars ex fuel o a mtch = some out ∧
        ∀ s t, e.first (x.withFlags fl) (envOf chars ex a) (if a.moves.getD o.moves then (a.eol - a.pos).toNat else 0) a.pos = some (s, t) →
          out.res = .ret true ∧
          (∀ j, (e.passes (x.withFlags fl) (envOf chars ex a) true s).head? = some (t, some j) → out.m.e 0 = j) ∧
          (e.marks true = 0 → o.endChange = false → out.m.e 0 = t) ∧
          (∀ i, (e.passes (x.withFlags fl) (envOf chars ex a) false s).head? = some (t, some i) → out.m.s 0 = min i (out.m.e 0)) ∧
          (e.marks false = 0 → o.startChange = false → out.m.s 0 = min s (out.m.e 0)) := by
  obtain ⟨body, hp, h⟩ := setRE_written hx hsp hfl hok
  refine ⟨_, h, fun o a mtch h0 h1 h2 hb hic => ?_⟩
  generalize hex : Expr.mk body (e.after ⟨1, []⟩).cMatch (e.after ⟨1, []⟩).names.length ⟨fl.contains 105, fl.contains 115, fl.contains 109⟩ true = ex
    at h ⊢
  have hbody : ex.body = body := by rw [← hex]
  have hflags : ex.flags = ⟨fl.contains 105, fl.contains 115, fl.contains 109⟩ := by rw [← hex]
  have hlet : letters ex.body = e.letters := by rw [hbody, ← letters_plain, hp, letters_plain, tree_letters]
  have hic' : ex.flags.ignoreCase = true → CaseOn chars (fun c => c ∈ a.text ∨ c ∈ letters ex.body) := by
    rw [hflags, hlet]
    intro h
    exact hic (by simpa using h)
  have hcb : CaseFor (envOf chars ex a) (letters body) := by rw [← hbody]; exact hic'
  have hct : CaseFor (envOf chars ex a) (letters (e.tree (x.withFlags fl) ⟨1, []⟩)) := by rw [tree_letters, ← hlet]; exact hic'
  have hfr' : inFrag false ex.body = true := by
    rw [hbody, ← inFrag_plain, hp, inFrag_plain]
    exact tree_frag e hok hfr
  have hml : ex.flags.multiLine = false := by rw [hflags]; simpa using hm
  have he : SpecOk (envOf chars ex a) := ⟨⟨Int.le_refl _, h2, hb⟩, hml⟩
  have hends : ∀ p, 0 ≤ p → p ≤ (envOf chars ex a).stop → RegExp.ends (envOf chars ex a) ex.body p = e.ends (x.withFlags fl) (envOf chars ex a) p := by
    intro p hp0 hp1
    rw [← tree_ends he e hok hfr p hp0 hp1, hbody, ← ends_plain he body hcb p hp0 hp1, hp,
      ends_plain he _ hct p hp0 hp1]
  have h1n : (⟨1, []⟩ : CState).cMatch ≠ 0 := by decide
  have key : ∀ stop, e.marks stop ≤ 1 → e.markFree stop = true → openG (.mark stop) ex.body = true ∧
      (e.marks stop = 0 → lacks (markOf stop) ex.body = true) ∧
      ∀ p, 0 ≤ p → p ≤ (envOf chars ex a).stop → caps (envOf chars ex a) (.mark stop) ex.body p =
        (e.passes (x.withFlags fl) (envOf chars ex a) stop p).map wayOf := by
    intro stop k1 k2
    refine ⟨?_, fun k3 => ?_, fun p hp0 hp1 => ?_⟩
    · rw [hbody, ← openG_plain, hp, openG_plain]
      exact tree_open_mark stop e h1n k1 k2
    · refine lacksG_lacks stop _ ?_
      rw [hbody, ← lacksG_plain, hp, lacksG_plain]
      exact tree_lacks_mark stop e h1n k3
    · rw [← tree_caps_mark he stop e hok hfr h1n k2 p hp0 hp1, hbody, ← caps_plain he _ body hcb p hp0 hp1, hp,
        caps_plain he _ _ hct p hp0 hp1]
  obtain ⟨o1, l1, c1⟩ := key false h1m hfm
  obtain ⟨o2, l2, c2⟩ := key true h1M hfM
  obtain ⟨n1, hn1⟩ := parse_group chars ex o a mtch (by rw [← hex]) hfr' (g := .mark false) (by simp) o1 hml hic' h0 h1 h2 hb
  obtain ⟨n2, hn2⟩ := parse_group chars ex o a mtch (by rw [← hex]) hfr' (g := .mark true) (by simp) o2 hml hic' h0 h1 h2 hb
  refine ⟨max n1 n2, fun fuel hf => ?_⟩
  obtain ⟨out, ho, hr, hw1⟩ := hn1 fuel (by omega)
  obtain ⟨out', ho', -, hw2⟩ := hn2 fuel (by omega)
  rw [ho] at ho'
  cases ho'
  have e1 := first_eq hends (if a.moves.getD o.moves then (a.eol - a.pos).toNat else 0) a.pos h0 (by show _ ≤ a.eol; split <;> omega)
  rw [e1] at hr hw1 hw2
  refine ⟨out, ho, fun s t hF => ?_⟩
  rw [hF] at hr
  obtain ⟨⟨w1, w2, w3⟩, v1⟩ := hw1 s t hF
  obtain ⟨-, v2⟩ := hw2 s t hF
  have hb : 0 ≤ s ∧ s ≤ a.eol := by
    have := first_in hF
    have h3 : (0 : Int) ≤ a.pos := h0
    constructor
    · omega
    · have := this.2
      split at this <;> omega
  refine ⟨hr, fun j hj => ?_, fun hz hfl => ?_, fun i hi => ?_, fun hz hfl => ?_⟩
  · exact v2 j 1 (by rw [c2 s hb.1 hb.2, List.head?_map, hj]; rfl) rfl
  · exact w1 ((parse_lacks (k := .stop) (Or.inr rfl) (l2 hz) ho).trans hfl)
  · exact v1 i 1 (by rw [c1 s hb.1 hb.2, List.head?_map, hi]; rfl) rfl w3
  · exact w2 ((parse_lacks (k := .start) (Or.inl rfl) (l1 hz) ho).trans hfl)

end Verif.RegExp
