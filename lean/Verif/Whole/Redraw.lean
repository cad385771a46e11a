import Verif.Whole.Draw
/-!
# A resumed parse draws what a full parse draws

`draw_parse`: the calls of any parse are legal for the line store and draw exactly the lines parsed. `draw_resume`: the picture of a line
drawn by a resumed parse looks like the one drawn by a full parse.
-/
namespace Verif.Whole
open Verif.TextParser (Ev PState Result Mode Parses Pure RangesOk Opaque fresh Lines OnLine ColOk NoPseudo EntOk Frame pseudos nest nestStep Open
  opened opens locateRoot)
open Verif.LineRegions (Payload LR Op Store)
open Verif.LineRegions.Spec

variable {RD : Type}

/-! ## Any parse -/

/-- every line of the range is announced -/
theorem lines_clear {from' : Int} {n : Nat} {evs : List Ev} (h : Lines from' n evs) : ∀ l, from' ≤ l → l < from' + n → Ev.clear l ∈ evs := by
  induction h with
  | nil => intro l h1 h2; omega
  | @next n evs b _ hb ih =>
    intro l h1 h2
    by_cases hl : l = from' + n
    · subst hl; simp
    · have := ih l h1 (by omega)
      simp [this]

theorem nest_start {l x : Int} {evs : List Ev} {T : List Open} (h : nest [] (.start l :: evs ++ [.fin x]) = some T) : nest [] evs = some T := by
  rw [show Ev.start l :: evs ++ [Ev.fin x] = [Ev.start l] ++ (evs ++ [.fin x]) from rfl, TextParser.nest_append] at h
  simp only [nest, nestStep, Option.bind_some] at h
  rw [TextParser.nest_append] at h
  cases hq : nest [] evs with
  | none => rw [hq] at h; simp at h
  | some S => rw [hq] at h; simpa [nest, nestStep] using h

theorem run_start (st : Styles RD) (sp : SpecSt RD) (l x : Int) (evs : List Ev) :
    specRun st sp (ops (.start l :: evs ++ [.fin x])) =
      specRun st { sp with cur := none, stack := [⟨none, none, st.background⟩] } (ops evs) := by
  rw [show Ev.start l :: evs ++ [Ev.fin x] = [Ev.start l] ++ (evs ++ [.fin x]) from rfl, ops_append, ops_append, ops_fin, List.append_nil,
    specRun_append]
  rfl

/-- the calls of a parse are legal, draw the lines parsed and no other -/
theorem draw_parse (st : Styles RD) {env : TextParser.Env} (hp : Pure env) {p : PState} {from' num : Int} {mode : Mode} {r : Result} (hf : 0 ≤ from')
    (hn : 0 < num) (h : Parses env p from' num mode r) (hc : ∀ e ∈ r.evs, ColOk e) (sp : SpecSt RD) :
    ∃ t, specRun st sp (ops r.evs) = some t ∧ t.first = sp.first ∧ t.n = sp.n ∧
      (∀ M : Nat, ¬ (from' ≤ M ∧ (M : Int) < from' + num) → t.pics M = sp.pics M) ∧
      ∀ M : Nat, from' ≤ M → (M : Int) < from' + num → inWin sp.first sp.n M → (t.pics M).isSome = true := by
  obtain ⟨_, evs, a1, a2⟩ := TextParser.parse_lines hp hf hn h
  obtain ⟨fuel, hpar⟩ := h.parse
  obtain ⟨T, hT⟩ := TextParser.C33_schemes_nest _ _ _ _ _ _ _ hpar
  rw [a1] at hT hc ⊢
  have hT := nest_start hT
  rw [run_start]
  obtain ⟨t, b1, _, b3, b4, b5, b6⟩ := lines_run st hf a2 (s := { sp with cur := none, stack := [⟨none, none, st.background⟩] }) (S := [])
    (fun e he => hc e (by simp [he])) rfl hT
  refine ⟨t, b1, b3, b4, ?_, ?_⟩
  · intro M hM; exact b5 M (by omega)
  · intro M h1 h2 h3; exact b6 M h1 (by omega) h3

/-! ## Runs that differ in the pictures only -/

theorem repic_step (env : Styles RD) {s t : SpecSt RD} {o : Op} (ho : isEvent o = true) (h : specStep env s o = some t) (q : Nat → Option (Picture RD)) :
    ∃ q', specStep env { s with pics := q } o = some { t with pics := q' } := by
  cases o with
  | setFirst f => simp [isEvent] at ho
  | resize n => simp [isEvent] at ho
  | clear => simp [isEvent] at ho
  | start l => simp only [specStep, Option.some.injEq] at h ⊢; subst h; exact ⟨_, rfl⟩
  | clearLine M =>
    simp only [specStep] at h ⊢
    split at h
    · simp at h
    · rename_i hst
      simp only [Option.some.injEq] at h
      subst h
      simp only [hst]
      exact ⟨_, rfl⟩
  | region M sx e r =>
    simp only [specStep] at h ⊢
    split at h
    · simp at h
    · rename_i hst
      split at h
      · rename_i hc
        simp only [Option.some.injEq] at h
        subst h
        simp only [hst]
        rw [if_pos hc]
        exact ⟨_, rfl⟩
      · simp at h
  | enter M sx e r sch =>
    simp only [specStep] at h ⊢
    split at h
    · simp at h
    · rename_i hst
      split at h
      · rename_i hc
        simp only [Option.some.injEq] at h
        subst h
        simp only [hst]
        rw [if_pos hc]
        exact ⟨_, rfl⟩
      · simp at h
  | leave M sx e r sch =>
    simp only [specStep] at h ⊢
    split at h
    · rename_i hst
      split at h
      · rename_i hc
        simp only [Option.some.injEq] at h
        subst h
        simp only [hst]
        rw [if_pos hc]
        exact ⟨_, rfl⟩
      · simp at h
    · simp at h

theorem repic_run (env : Styles RD) (os : List Op) (hos : ∀ o ∈ os, isEvent o = true) : ∀ {s t : SpecSt RD}, specRun env s os = some t →
    ∀ q : Nat → Option (Picture RD), ∃ q', specRun env { s with pics := q } os = some { t with pics := q' } := by
  induction os with
  | nil => intro s t h q; simp only [specRun, Option.some.injEq] at h; subst h; exact ⟨q, rfl⟩
  | cons o os ih =>
    intro s t h q
    simp only [specRun, Option.bind_eq_some_iff] at h
    obtain ⟨u, a, b⟩ := h
    obtain ⟨q1, h1⟩ := repic_step env (hos o (by simp)) a q
    obtain ⟨q2, h2⟩ := ih (fun o ho => hos o (List.mem_cons_of_mem _ ho)) b q1
    refine ⟨q2, ?_⟩
    simp only [specRun, h1, Option.bind_some, h2]

/-- windows do not move -/
theorem win_step (env : Styles RD) {s t : SpecSt RD} {o : Op} (ho : isEvent o = true) (h : specStep env s o = some t) : t.first = s.first ∧ t.n = s.n := by
  cases o with
  | setFirst f => simp [isEvent] at ho
  | resize n => simp [isEvent] at ho
  | clear => simp [isEvent] at ho
  | start l => simp only [specStep, Option.some.injEq] at h; subst h; exact ⟨rfl, rfl⟩
  | clearLine M =>
    simp only [specStep] at h
    split at h
    · simp at h
    · simp only [Option.some.injEq] at h; subst h; exact ⟨rfl, rfl⟩
  | region M sx e r =>
    simp only [specStep] at h
    split at h
    · simp at h
    · split at h
      · simp only [Option.some.injEq] at h; subst h; exact ⟨rfl, rfl⟩
      · simp at h
  | enter M sx e r sch =>
    simp only [specStep] at h
    split at h
    · simp at h
    · split at h
      · simp only [Option.some.injEq] at h; subst h; exact ⟨rfl, rfl⟩
      · simp at h
  | leave M sx e r sch =>
    simp only [specStep] at h
    split at h
    · split at h
      · simp only [Option.some.injEq] at h; subst h; exact ⟨rfl, rfl⟩
      · simp at h
    · simp at h

theorem win_run (env : Styles RD) (os : List Op) (hos : ∀ o ∈ os, isEvent o = true) : ∀ {s t : SpecSt RD}, specRun env s os = some t →
    t.first = s.first ∧ t.n = s.n := by
  induction os with
  | nil => intro s t h; simp only [specRun, Option.some.injEq] at h; subst h; exact ⟨rfl, rfl⟩
  | cons o os ih =>
    intro s t h
    simp only [specRun, Option.bind_eq_some_iff] at h
    obtain ⟨u, a, b⟩ := h
    have h1 := win_step env (hos o (by simp)) a
    have h2 := ih (fun o ho => hos o (List.mem_cons_of_mem _ ho)) b
    exact ⟨h2.1.trans h1.1, h2.2.trans h1.2⟩

/-- two runs over the same calls, with the same open backgrounds at the start: a line announced in them looks the same afterwards -/
theorem near_clear (env : Styles RD) (g : Bool) {L : Nat} {a b : List Op} (ha : ∀ o ∈ a, isEvent o = true) (hb : ∀ o ∈ b, isEvent o = true)
    {s1 s2 t1 t2 : SpecSt RD} (hcur : s1.cur = s2.cur) (hstk : s1.stack.map (key true) = s2.stack.map (key true)) (w1 : inWin s1.first s1.n L)
    (w2 : inWin s2.first s2.n L) (h1 : specRun env s1 (a ++ .clearLine L :: b) = some t1) (h2 : specRun env s2 (a ++ .clearLine L :: b) = some t2) :
    Near g L t1 t2 := by
  rw [specRun_append, Option.bind_eq_some_iff] at h1 h2
  obtain ⟨u1, a1, b1⟩ := h1
  obtain ⟨u2, a2, b2⟩ := h2
  obtain ⟨q1, c1⟩ := repic_run env a ha a1 fun _ => none
  obtain ⟨q2, c2⟩ := repic_run env a ha a2 fun _ => none
  have hn : Near g L { s1 with pics := fun _ => none } { s2 with pics := fun _ => none } := ⟨hcur, hstk, rfl, w1, w2⟩
  have hn := near_run env a ha hn c1 c2
  simp only [specRun, Option.bind_eq_some_iff] at b1 b2
  obtain ⟨v1, d1, e1⟩ := b1
  obtain ⟨v2, d2, e2⟩ := b2
  refine near_run env b hb ?_ e1 e2
  have k1 : inWin u1.first u1.n L := hn.w1
  have k2 : inWin u2.first u2.n L := hn.w2
  have k3 : u1.stack.map (key true) = u2.stack.map (key true) := hn.stack
  -- the pictures before do not matter
  have p1 : specStep env { u1 with pics := fun _ => none } (.clearLine L) = some { v1 with pics := fun M => if M = L then v1.pics L else none } := by
    simp only [specStep] at d1 ⊢
    split at d1
    · simp at d1
    · rename_i hst
      simp only [Option.some.injEq] at d1
      subst d1
      simp only [hst]
      congr 2
      funext M
      by_cases hM : M = L
      · subst hM; simp [k1]
      · simp [hM]
  have p2 : specStep env { u2 with pics := fun _ => none } (.clearLine L) = some { v2 with pics := fun M => if M = L then v2.pics L else none } := by
    simp only [specStep] at d2 ⊢
    split at d2
    · simp at d2
    · rename_i hst
      simp only [Option.some.injEq] at d2
      subst d2
      simp only [hst]
      congr 2
      funext M
      by_cases hM : M = L
      · subst hM; simp [k2]
      · simp [hM]
  have hm : Near g L { u1 with pics := fun _ => none } { u2 with pics := fun _ => none } := ⟨hn.cur, k3, rfl, k1, k2⟩
  have hm := near_step env hm (o := .clearLine L) rfl p1 p2
  exact ⟨hm.cur, hm.stack, by simpa using hm.pic, hm.w1, hm.w2⟩

/-! ## The first line of a resumed parse -/

/-- the line is covered by the innermost background -/
def Flat (g : Bool) (s : SpecSt RD) (L : Nat) : Prop :=
  ∃ b r p, s.stack = b :: r ∧ s.pics L = some p ∧ obs g p = (fun _ => some (key g b), [])

theorem cover_obs (g : Bool) (a : Payload RD) (ls : List (Layer RD)) : obs g { layers := ⟨0, none, a⟩ :: ls, specials := [] } = (fun _ => some (key g a), []) := by
  simp only [obs, List.map_nil, Prod.mk.injEq, and_true]
  funext x
  rw [Verif.LineRegions.shown_cons, if_pos (by simp [Layer.covers])]
  rfl

theorem obs_specials {g : Bool} {p : Picture RD} {f : Nat → Option (Option RD × Option Nat)} (h : obs g p = (f, [])) : p.specials = [] := by
  simp only [obs, Prod.mk.injEq, List.map_eq_nil_iff] at h
  exact h.2

theorem flat_clear (env : Styles RD) (g : Bool) {s t : SpecSt RD} {L : Nat} (w : inWin s.first s.n L) (h : specStep env s (.clearLine L) = some t) :
    Flat g t L ∧ t.stack = s.stack ∧ t.cur = some L := by
  simp only [specStep] at h
  split at h
  · simp at h
  · rename_i bg rest hst
    simp only [Option.some.injEq] at h
    subst h
    refine ⟨⟨bg, rest, { layers := [⟨0, none, bg⟩], specials := [] }, hst, ?_, cover_obs g bg []⟩, rfl, rfl⟩
    simp [w]

theorem flat_pseudo (env : Styles RD) (hc : Calm env) (g : Bool) {s t : SpecSt RD} {L : Nat} {r : Option Nat} {sch : Nat} (hg : g = true → r.isSome = true)
    (hs : Styled env s.stack) (w : inWin s.first s.n L) (hf : Flat g s L) (h : specStep env s (.enter L 0 0 r sch) = some t) : Flat g t L := by
  obtain ⟨b, rest, p, h1, h2, h3⟩ := hf
  simp only [specStep, h1] at h
  split at h
  · simp only [Option.some.injEq] at h
    subst h
    have hsp := obs_specials h3
    cases r with
    | some x =>
      refine ⟨_, _, { p with layers := ⟨0, none, ⟨some x, some sch, styleOn env (some x) b.rdef⟩⟩ :: p.layers }, rfl, ?_, ?_⟩
      · simp [SpecSt.draw, w, h2]
      · rw [hsp]; exact cover_obs g _ _
    | none =>
      have hgf : g = false := by
        cases g with
        | false => rfl
        | true => have := hg rfl; simp at this
      subst hgf
      refine ⟨_, _, p, rfl, ?_, ?_⟩
      · simpa using h2
      · rw [h3]
        rw [h1] at hs
        simp only [key, Bool.false_eq_true, if_false, Prod.mk.injEq, and_true]
        rw [style_none hc hs]
  · simp at h

theorem flat_pseudos (env : Styles RD) (hc : Calm env) (g : Bool) {l : Int} {sch : Nat} (rs : List (Option Nat)) (hg : g = true → ∀ r ∈ rs, r.isSome = true) :
    ∀ {s t : SpecSt RD}, Styled env s.stack → inWin s.first s.n l.toNat → Flat g s l.toNat →
      specRun env s (ops (rs.map fun r => Ev.pseudo l r sch)) = some t → Flat g t l.toNat := by
  induction rs with
  | nil => intro s t _ _ hf h; simp only [List.map_nil, ops, List.filterMap_nil, specRun, Option.some.injEq] at h; subst h; exact hf
  | cons r rs ih =>
    intro s t hs w hf h
    rw [List.map_cons, ops_cons, specRun_append, Option.bind_eq_some_iff] at h
    obtain ⟨u, a, b⟩ := h
    have a : specStep env s (.enter l.toNat 0 0 r sch) = some u := by
      simpa [ops, op, specRun] using a
    refine ih (fun h r hr => hg h r (List.mem_cons_of_mem _ hr)) (styled_step hs rfl a) ?_ (flat_pseudo env hc g (fun h => hg h r (by simp)) hs w hf a) b
    rw [(win_step env (o := .enter l.toNat 0 0 r sch) rfl a).1, (win_step env (o := .enter l.toNat 0 0 r sch) rfl a).2]
    exact w

theorem flat_near {env : Styles RD} {g : Bool} {L : Nat} {s1 s2 : SpecSt RD} (hcur : s1.cur = s2.cur) (h1 : Styled env s1.stack) (h2 : Styled env s2.stack)
    (hreg : s1.stack.map (·.region) = s2.stack.map (·.region)) (f1 : Flat g s1 L) (f2 : Flat g s2 L) (w1 : inWin s1.first s1.n L)
    (w2 : inWin s2.first s2.n L) : Near g L s1 s2 := by
  have hk := Styled.eq h1 h2 hreg
  refine ⟨hcur, hk, ?_, w1, w2⟩
  obtain ⟨b1, r1, p1, a1, a2, a3⟩ := f1
  obtain ⟨b2, r2, p2, c1, c2, c3⟩ := f2
  rw [a1, c1] at hk
  have := key_of_true (List.cons.inj hk).1 g
  rw [a2, c2, Option.map_some, Option.map_some, a3, c3, this]

/-! ## A resumed parse -/

theorem ops_clear (l : Int) : ops [Ev.clear l] = [Op.clearLine l.toNat] := rfl

theorem tracks_region {s1 s2 : SpecSt RD} {fs : List Frame} (h1 : Tracks s1 (opened fs)) (h2 : Tracks s2 (opens fs)) :
    s1.stack.map (·.region) = s2.stack.map (·.region) := by
  unfold Tracks at h1 h2
  rw [h1, h2]
  simp [opened, opens, Function.comp_def]

/-- the pictures of a line drawn by a full parse of `[0, E)` and by one resumed at `F` -/
theorem draw_events (st : Styles RD) (hc : Calm st) (g : Bool) {F E : Int} (hF : 0 ≤ F) (hFE : F < E) {fs : List Frame} {sch : Nat} {eF rest : List Ev} {x y : Int}
    (l1 : Lines 0 F.toNat eF) (l2 : Lines F (E - F).toNat (.clear F :: pseudos F fs sch ++ rest)) (c1 : ∀ e ∈ eF, ColOk e)
    (hn : nest [] eF = some (opened fs)) (hg : g = true → ∀ f ∈ fs, f.info.block.region.isSome = true)
    {s1 s2 t1 t2 : SpecSt RD} (h1 : specRun st s1 (ops (.start 0 :: (eF ++ .clear F :: rest) ++ [.fin x])) = some t1)
    (h2 : specRun st s2 (ops (.start F :: (.clear F :: pseudos F fs sch ++ rest) ++ [.fin y])) = some t2) (L : Nat) (hL : F ≤ L) (hLE : (L : Int) < E)
    (w1 : inWin s1.first s1.n L) (w2 : inWin s2.first s2.n L) : (t1.pics L).map (obs g) = (t2.pics L).map (obs g) := by
  rw [run_start] at h1 h2
  -- the full parse up to line F
  obtain ⟨u1, a1, a2, a3, a4, _, _⟩ := lines_run st (Int.le_refl 0) l1 (s := { s1 with cur := none, stack := [⟨none, none, st.background⟩] }) (S := []) c1 rfl hn
  have a3 : u1.first = s1.first := a3
  have a4 : u1.n = s1.n := a4
  have sty0 : Styled st [(⟨none, none, st.background⟩ : Payload RD)] := ⟨rfl, rfl⟩
  have s1y := styled_run (env := st) (ops eF) (ops_events _) (s := { s1 with cur := none, stack := [⟨none, none, st.background⟩] }) sty0 a1
  rw [ops_append, specRun_append, a1, Option.bind_some, ops_cons, specRun_append, Option.bind_eq_some_iff] at h1
  obtain ⟨v1, b1, h1⟩ := h1
  have b1 : specStep st u1 (.clearLine F.toNat) = some v1 := by simpa [ops_clear, specRun] using b1
  have bw := win_step st (o := .clearLine F.toNat) rfl b1
  -- the resumed parse up to the same point
  rw [List.cons_append, ops_cons, specRun_append, Option.bind_eq_some_iff] at h2
  obtain ⟨u2, d1, h2⟩ := h2
  have d1 : specStep st { s2 with cur := none, stack := [⟨none, none, st.background⟩] } (.clearLine F.toNat) = some u2 := by
    simpa [ops_clear, specRun] using d1
  have dw := win_step st (o := .clearLine F.toNat) rfl d1
  have dw1 : u2.first = s2.first := dw.1
  have dw2 : u2.n = s2.n := dw.2
  rw [ops_append, specRun_append, Option.bind_eq_some_iff] at h2
  obtain ⟨v2, e1, h2⟩ := h2
  have ew := win_run st (ops (pseudos F fs sch)) (ops_events _) e1
  have d2 : u2.stack = [⟨none, none, st.background⟩] ∧ u2.cur = some F.toNat := by
    simp only [specStep, Option.some.injEq] at d1
    subst d1
    exact ⟨rfl, rfl⟩
  have u2y : Styled st u2.stack := by rw [d2.1]; exact sty0
  obtain ⟨v2', o1, o2, o3, _⟩ := online_run st (l := F) (pseudos F fs sch) (s := u2) (S := []) (T := opens fs) (TextParser.pseudos_on F fs sch) (by
    intro e he
    unfold pseudos at he
    simp only [List.mem_map] at he
    obtain ⟨f, _, rfl⟩ := he
    trivial) (by rw [Tracks, d2.1]; rfl) d2.2 (by rw [TextParser.nest_pseudos]; simp)
  have : v2' = v2 := by rw [e1] at o1; exact (Option.some.inj o1).symm
  subst this
  have v2y := styled_run (env := st) (ops (pseudos F fs sch)) (ops_events _) u2y e1
  -- what is the same there
  have hv1 : v1.stack = u1.stack ∧ v1.cur = some F.toNat := by
    simp only [specStep] at b1
    split at b1
    · simp at b1
    · rename_i hst
      simp only [Option.some.injEq] at b1
      subst b1
      exact ⟨rfl, rfl⟩
  have hreg := tracks_region (s1 := v1) (s2 := v2') (fs := fs) (by rw [Tracks, hv1.1]; exact a2) o2
  have hcur : v1.cur = v2'.cur := by rw [hv1.2, o3]
  have v1y : Styled st v1.stack := by rw [hv1.1]; exact s1y
  have wv1 : inWin v1.first v1.n L := by rw [bw.1, bw.2, a3, a4]; exact w1
  have wv2 : inWin v2'.first v2'.n L := by rw [ew.1, ew.2, dw1, dw2]; exact w2
  by_cases hLF : (L : Int) = F
  · have hLn : F.toNat = L := by omega
    have f1 : Flat g v1 L := by
      rw [hLn] at b1
      exact (flat_clear st g (by rw [a3, a4]; exact w1) b1).1
    have f2 : Flat g v2' L := by
      rw [← hLn]
      refine flat_pseudos st hc g (l := F) (sch := sch) (fs.reverse.map fun f => f.info.block.region) ?_ u2y ?_ ?_ ?_ (s := u2)
      · intro h r hr
        simp only [List.mem_map, List.mem_reverse] at hr
        obtain ⟨f, hf, rfl⟩ := hr
        exact hg h f hf
      · rw [dw1, dw2, hLn]; exact w2
      · exact (flat_clear st g (s := { s2 with cur := none, stack := [⟨none, none, st.background⟩] }) (by rw [hLn]; exact w2) d1).1
      · rw [List.map_map]; exact e1
    exact (near_run st (ops rest) (ops_events _) (flat_near hcur v1y v2y hreg f1 f2 wv1 wv2) h1 h2).pic
  · have hm : Ev.clear (L : Int) ∈ rest := by
      have := lines_clear l2 L hL (by omega)
      simp only [List.cons_append, List.mem_cons, List.mem_append] at this
      rcases this with h | h | h
      · simp only [Ev.clear.injEq] at h; exact absurd h hLF
      · unfold pseudos at h; simp at h
      · exact h
    obtain ⟨ra, rb, hr⟩ := List.append_of_mem hm
    subst hr
    have hop : ops (ra ++ Ev.clear (L : Int) :: rb) = ops ra ++ Op.clearLine L :: ops rb := by
      rw [ops_append, ops_cons, ops_clear]
      simp
    rw [hop] at h1 h2
    exact (near_clear st g (ops_events ra) (ops_events rb) hcur (Styled.eq v1y v2y hreg) wv1 wv2 h1 h2).pic

end Verif.Whole
