import Verif.Whole.Split
import Verif.LineRegions.Props
/-!
# From the events of the parser to the picture of a line

`op` translates a call of the region handler into a call of the line store. The rest compares the pictures (Verif.LineRegions.Spec) drawn
by a full parse and by a resumed one.
-/
namespace Verif.Whole
open Verif.TextParser (Ev PState Result Mode Parses Pure RangesOk Opaque fresh Lines OnLine ColOk NoPseudo EntOk Frame pseudos nest nestStep Open
  opened opens locateRoot EntOk)
open Verif.LineRegions (Payload LR Op Store)
open Verif.LineRegions.Spec

variable {RD : Type}

/-- the styles a line store works with: region mapper, inheritance of styles, special regions, background -/
abbrev Styles (RD : Type) := Verif.LineRegions.Env RD

/-- a call of the region handler as the line store gets it: `BaseEditor` passes each one on (BaseEditor.cpp:471-517); `fin`
(`endParsing`) does nothing there (LineRegionsSupport.h:70). A replayed block is an `enterScheme` at column 0
(TextParserImpl.cpp:187-195). -/
def op : Ev → Option Op
  | .start l => some (.start l.toNat)
  | .clear l => some (.clearLine l.toNat)
  | .region l s e r => some (.region l.toNat s e r)
  | .enter l s e r c => some (.enter l.toNat s e r c)
  | .leave l s e r c => some (.leave l.toNat s e r c)
  | .pseudo l r c => some (.enter l.toNat 0 0 r c)
  | .fin _ => none

def ops (evs : List Ev) : List Op := evs.filterMap op

theorem ops_append (a b : List Ev) : ops (a ++ b) = ops a ++ ops b := List.filterMap_append ..
theorem ops_cons (e : Ev) (es : List Ev) : ops (e :: es) = ops [e] ++ ops es := ops_append [e] es
theorem ops_fin (l : Int) : ops [Ev.fin l] = [] := rfl

theorem specRun_append (env : Styles RD) (sp : SpecSt RD) (a b : List Op) :
    specRun env sp (a ++ b) = (specRun env sp a).bind fun s => specRun env s b := by
  induction a generalizing sp with
  | nil => rfl
  | cons o os ih =>
    simp only [List.cons_append, specRun]
    cases specStep env sp o with
    | none => rfl
    | some s => simp [ih]

/-! ## What is compared -/

/-- what is seen of a region: its style and, if `g`, which region it is -/
def key (g : Bool) (a : Payload RD) : Option RD × Option Nat := (a.rdef, if g then a.region else none)

/-- what is seen of a line: for every column the style (and the region, if `g`); the list of special regions -/
def obs (g : Bool) (p : Picture RD) : (Nat → Option (Option RD × Option Nat)) × List (Int × Int × (Option RD × Option Nat)) :=
  (fun x => (p.shown x).map (key g), p.specials.map fun t => (t.1, t.2.1, key true t.2.2))

theorem key_of_true {a b : Payload RD} (h : key true a = key true b) (g : Bool) : key g a = key g b := by
  simp only [key, if_true, Prod.mk.injEq] at h
  simp [key, h.1, h.2]

theorem key_rdef {a b : Payload RD} (h : key true a = key true b) : a.rdef = b.rdef := (Prod.mk.inj h).1
theorem key_region {a b : Payload RD} (h : key true a = key true b) : a.region = b.region := by simpa [key] using (Prod.mk.inj h).2

theorem obs_layer {g : Bool} {p q : Picture RD} (h : obs g p = obs g q) (lo : Int) (hi : Option Int) {a b : Payload RD} (hk : key g a = key g b) :
    obs g { p with layers := ⟨lo, hi, a⟩ :: p.layers } = obs g { q with layers := ⟨lo, hi, b⟩ :: q.layers } := by
  simp only [obs, Prod.mk.injEq] at h ⊢
  refine ⟨?_, h.2⟩
  funext x
  have hx := congrFun h.1 x
  rw [Verif.LineRegions.shown_cons, Verif.LineRegions.shown_cons]
  have hc : (⟨lo, hi, a⟩ : Layer RD).covers x = (⟨lo, hi, b⟩ : Layer RD).covers x := rfl
  rw [hc]
  split
  · simp [hk]
  · exact hx

theorem obs_special {g : Bool} {p q : Picture RD} (h : obs g p = obs g q) (s e : Int) {a b : Payload RD} (hk : key true a = key true b) :
    obs g { p with specials := p.specials ++ [(s, e, a)] } = obs g { q with specials := q.specials ++ [(s, e, b)] } := by
  simp only [obs, Prod.mk.injEq] at h ⊢
  refine ⟨h.1, ?_⟩
  rw [List.map_append, List.map_append, h.2]
  simp [hk]

/-- two drawings that agree on line `L` and on the open backgrounds -/
structure Near (g : Bool) (L : Nat) (s1 s2 : SpecSt RD) : Prop where
  cur   : s1.cur = s2.cur
  stack : s1.stack.map (key true) = s2.stack.map (key true)
  pic   : (s1.pics L).map (obs g) = (s2.pics L).map (obs g)
  w1    : inWin s1.first s1.n L
  w2    : inWin s2.first s2.n L

/-- calls that come from the parser -/
def isEvent : Op → Bool
  | .setFirst _ | .resize _ | .clear => false
  | _ => true

theorem ops_events (evs : List Ev) : ∀ o ∈ ops evs, isEvent o = true := by
  intro o ho
  obtain ⟨e, _, he⟩ := List.mem_filterMap.1 ho
  cases e <;> simp only [op, Option.some.injEq, reduceCtorEq] at he <;> subst he <;> rfl

theorem draw_self (sp : SpecSt RD) (L : Nat) (f : Picture RD → Picture RD) (h : inWin sp.first sp.n L) :
    sp.draw L f L = (sp.pics L).map f := by simp [SpecSt.draw, h]

theorem draw_other (sp : SpecSt RD) {L M : Nat} (f : Picture RD → Picture RD) (h : M ≠ L) : sp.draw L f M = sp.pics M := by
  simp [SpecSt.draw, h]

/-- the same redrawing of corresponding lines -/
theorem near_draw {g : Bool} {L M : Nat} {s1 s2 : SpecSt RD} (h : Near g L s1 s2) (f1 f2 : Picture RD → Picture RD)
    (hf : ∀ p q, obs g p = obs g q → obs g (f1 p) = obs g (f2 q)) :
    (s1.draw M f1 L).map (obs g) = (s2.draw M f2 L).map (obs g) := by
  by_cases hM : L = M
  · subst hM
    rw [draw_self _ _ _ h.w1, draw_self _ _ _ h.w2]
    have := h.pic
    cases h1 : s1.pics L with
    | none =>
      rw [h1] at this
      cases h2 : s2.pics L with
      | none => rfl
      | some q => rw [h2] at this; simp at this
    | some p =>
      rw [h1] at this
      cases h2 : s2.pics L with
      | none => rw [h2] at this; simp at this
      | some q =>
        rw [h2] at this
        simp only [Option.map_some, Option.some.injEq] at this ⊢
        exact hf p q this
  · rw [draw_other _ _ hM, draw_other _ _ hM]
    exact h.pic

theorem style_cong (env : Styles RD) (r : Option Nat) {a b : Payload RD} (h : key true a = key true b) (c d : Option Nat) :
    key true (⟨r, c, styleOn env r a.rdef⟩ : Payload RD) = key true (⟨r, d, styleOn env r b.rdef⟩ : Payload RD) := by
  simp [key, key_rdef h]

theorem near_step (env : Styles RD) {g : Bool} {L : Nat} {s1 s2 t1 t2 : SpecSt RD} (h : Near g L s1 s2) {o : Op} (ho : isEvent o = true)
    (h1 : specStep env s1 o = some t1) (h2 : specStep env s2 o = some t2) : Near g L t1 t2 := by
  have hstk := h.stack
  cases o with
  | setFirst f => simp [isEvent] at ho
  | resize n => simp [isEvent] at ho
  | clear => simp [isEvent] at ho
  | start l =>
    simp only [specStep, Option.some.injEq] at h1 h2
    subst h1; subst h2
    exact ⟨rfl, rfl, h.pic, h.w1, h.w2⟩
  | clearLine M =>
    simp only [specStep] at h1 h2
    cases e1 : s1.stack with
    | nil => simp [e1] at h1
    | cons a r1 =>
      cases e2 : s2.stack with
      | nil => simp [e2] at h2
      | cons b r2 =>
        simp only [e1, e2, Option.some.injEq] at h1 h2
        subst h1; subst h2
        rw [e1, e2] at hstk
        simp only [List.map_cons, List.cons.injEq] at hstk
        refine ⟨rfl, by simp [hstk.1, hstk.2], ?_, h.w1, h.w2⟩
        by_cases hM : L = M
        · subst hM
          simp only [h.w1, h.w2, and_self, if_true, Option.map_some, Option.some.injEq]
          simp only [obs, Prod.mk.injEq, List.map_nil, and_true]
          funext x
          rw [Verif.LineRegions.shown_cons, Verif.LineRegions.shown_cons]
          have hc : (⟨0, none, a⟩ : Layer RD).covers x = (⟨0, none, b⟩ : Layer RD).covers x := rfl
          rw [hc]
          split
          · simp [key_of_true hstk.1 g]
          · rfl
        · simp only [hM, false_and, if_false]
          exact h.pic
  | region M s e r =>
    simp only [specStep] at h1 h2
    cases e1 : s1.stack with
    | nil => simp [e1] at h1
    | cons a r1 =>
      cases e2 : s2.stack with
      | nil => simp [e2] at h2
      | cons b r2 =>
        simp only [e1, e2] at h1 h2
        split at h1
        · split at h2
          · simp only [Option.some.injEq] at h1 h2
            subst h1; subst h2
            have hk : key true a = key true b := by rw [e1, e2] at hstk; simpa using (List.cons.inj hstk).1
            refine ⟨h.cur, by rw [e1, e2] at hstk; exact hstk, near_draw h _ _ ?_, h.w1, h.w2⟩
            intro p q hpq
            have hp := style_cong env (some r) hk a.scheme b.scheme
            split
            · exact obs_special hpq s e hp
            · exact obs_layer hpq s (some e) (key_of_true hp g)
          · simp at h2
        · simp at h1
  | enter M s e r sch =>
    simp only [specStep] at h1 h2
    cases e1 : s1.stack with
    | nil => simp [e1] at h1
    | cons a r1 =>
      cases e2 : s2.stack with
      | nil => simp [e2] at h2
      | cons b r2 =>
        simp only [e1, e2] at h1 h2
        split at h1
        · split at h2
          · simp only [Option.some.injEq] at h1 h2
            subst h1; subst h2
            rw [e1, e2] at hstk
            have hk : key true a = key true b := by simpa using (List.cons.inj hstk).1
            have hp := style_cong env r hk (some sch) (some sch)
            refine ⟨h.cur, ?_, ?_, h.w1, h.w2⟩
            · show key true _ :: List.map (key true) (a :: r1) = key true _ :: List.map (key true) (b :: r2)
              rw [hp, hstk]
            · cases hr : r.isSome with
              | false => simp only [Bool.false_eq_true, if_false]; exact h.pic
              | true =>
                simp only [if_true]
                exact near_draw h _ _ fun p q hpq => obs_layer hpq s none (key_of_true hp g)
          · simp at h2
        · simp at h1
  | leave M s e r sch =>
    simp only [specStep] at h1 h2
    split at h1
    · rename_i a b rest e1
      split at h2
      · rename_i a' b' rest' e2
        split at h1
        · split at h2
          · simp only [Option.some.injEq] at h1 h2
            subst h1; subst h2
            rw [e1, e2] at hstk
            simp only [List.map_cons, List.cons.injEq] at hstk
            obtain ⟨k1, k2, k3⟩ := hstk
            refine ⟨h.cur, by simp [k2, k3], ?_, h.w1, h.w2⟩
            have := key_region k1
            cases hr : a.region with
            | none => rw [hr] at this; simp only [← this, Option.isSome_none, Bool.false_eq_true, if_false]; exact h.pic
            | some x =>
              rw [hr] at this
              simp only [← this, Option.isSome_some, if_true]
              exact near_draw h _ _ fun p q hpq => obs_layer hpq e none (key_of_true k2 g)
          · simp at h2
        · simp at h1
      · simp at h2
    · simp at h1

theorem near_run (env : Styles RD) {g : Bool} {L : Nat} (os : List Op) (hos : ∀ o ∈ os, isEvent o = true) : ∀ {s1 s2 t1 t2 : SpecSt RD},
    Near g L s1 s2 → specRun env s1 os = some t1 → specRun env s2 os = some t2 → Near g L t1 t2 := by
  induction os with
  | nil => intro s1 s2 t1 t2 h h1 h2; simp only [specRun, Option.some.injEq] at h1 h2; subst h1; subst h2; exact h
  | cons o os ih =>
    intro s1 s2 t1 t2 h h1 h2
    simp only [specRun, Option.bind_eq_some_iff] at h1 h2
    obtain ⟨u1, a1, b1⟩ := h1
    obtain ⟨u2, a2, b2⟩ := h2
    exact ih (fun o ho => hos o (List.mem_cons_of_mem _ ho)) (near_step env h (hos o (by simp)) a1 a2) b1 b2

/-! ## Open backgrounds -/

/-- every open background has the style that its region has on the background below it -/
def Styled (env : Styles RD) : List (Payload RD) → Prop
  | [] => False
  | [b] => b.region = none ∧ b.rdef = env.background
  | a :: b :: r => a.rdef = styleOn env a.region b.rdef ∧ Styled env (b :: r)

theorem Styled.eq {env : Styles RD} : ∀ {s1 s2 : List (Payload RD)}, Styled env s1 → Styled env s2 →
    s1.map (·.region) = s2.map (·.region) → s1.map (key true) = s2.map (key true)
  | [], _, h, _, _ => absurd h (by simp [Styled])
  | _ :: _, [], _, h, _ => absurd h (by simp [Styled])
  | [a], [b], h1, h2, _ => by
    obtain ⟨a1, a2⟩ := h1
    obtain ⟨b1, b2⟩ := h2
    simp [key, a1, a2, b1, b2]
  | [_], _ :: _ :: _, _, _, h => by simp at h
  | _ :: _ :: _, [_], _, _, h => by simp at h
  | a :: b :: r, a' :: b' :: r', h1, h2, h => by
    obtain ⟨x1, x2⟩ := h1
    obtain ⟨y1, y2⟩ := h2
    rw [List.map_cons, List.map_cons] at h
    obtain ⟨h3, h4⟩ := List.cons.inj h
    have ih := Styled.eq x2 y2 h4
    rw [List.map_cons, List.map_cons (l := b' :: r'), ih]
    rw [List.map_cons, List.map_cons] at ih
    have hb := key_rdef (List.cons.inj ih).1
    simp [key, x1, y1, h3, hb]

theorem Styled.tail {env : Styles RD} {a b : Payload RD} {r : List (Payload RD)} (h : Styled env (a :: b :: r)) : Styled env (b :: r) := h.2

/-- a style is not changed by inheriting from itself, and there is no background style without a table of styles -/
structure Calm (env : Styles RD) : Prop where
  self : ∀ b, env.assignParent b (some b) = b
  bg   : env.mapper = none → env.background = none

theorem Styled.rdef_none {env : Styles RD} (hc : Calm env) (hm : env.mapper = none) : ∀ {s : List (Payload RD)}, Styled env s →
    ∀ a ∈ s, a.rdef = none
  | [], h, _, _ => absurd h (by simp [Styled])
  | [b], h, a, ha => by
    simp only [List.mem_singleton] at ha
    subst ha
    rw [h.2, hc.bg hm]
  | x :: b :: r, h, a, ha => by
    rcases List.mem_cons.1 ha with rfl | ha
    · rw [h.1]; simp [styleOn, hm]
    · exact Styled.rdef_none hc hm h.2 a ha

/-- a transparent block looks like what is around it -/
theorem style_none {env : Styles RD} (hc : Calm env) {b : Payload RD} {r : List (Payload RD)} (h : Styled env (b :: r)) :
    styleOn env none b.rdef = b.rdef := by
  cases hm : env.mapper with
  | none => rw [h.rdef_none hc hm b (by simp)]; simp [styleOn, hm]
  | some f =>
    unfold styleOn
    rw [hm]
    cases hb : b.rdef with
    | none => rfl
    | some x => simp [hc.self]

theorem styled_step {env : Styles RD} {s t : SpecSt RD} {o : Op} (hs : Styled env s.stack) (ho : isEvent o = true) (h : specStep env s o = some t) :
    Styled env t.stack := by
  cases o with
  | setFirst f => simp [isEvent] at ho
  | resize n => simp [isEvent] at ho
  | clear => simp [isEvent] at ho
  | start l =>
    simp only [specStep, Option.some.injEq] at h
    subst h
    exact ⟨rfl, rfl⟩
  | clearLine M =>
    simp only [specStep] at h
    split at h
    · simp at h
    · simp only [Option.some.injEq] at h; subst h; exact hs
  | region M sx e r =>
    simp only [specStep] at h
    split at h
    · simp at h
    · split at h
      · simp only [Option.some.injEq] at h; subst h; exact hs
      · simp at h
  | enter M sx e r sch =>
    simp only [specStep] at h
    split at h
    · simp at h
    · rename_i bg rest hst
      split at h
      · simp only [Option.some.injEq] at h
        subst h
        rw [hst] at hs
        exact ⟨rfl, hs⟩
      · simp at h
  | leave M sx e r sch =>
    simp only [specStep] at h
    split at h
    · rename_i old bg rest hst
      split at h
      · simp only [Option.some.injEq] at h
        subst h
        rw [hst] at hs
        exact hs.2
      · simp at h
    · simp at h

theorem styled_run {env : Styles RD} (os : List Op) (hos : ∀ o ∈ os, isEvent o = true) : ∀ {s t : SpecSt RD}, Styled env s.stack →
    specRun env s os = some t → Styled env t.stack := by
  induction os with
  | nil => intro s t hs h; simp only [specRun, Option.some.injEq] at h; subst h; exact hs
  | cons o os ih =>
    intro s t hs h
    simp only [specRun, Option.bind_eq_some_iff] at h
    obtain ⟨u, a, b⟩ := h
    exact ih (fun o ho => hos o (List.mem_cons_of_mem _ ho)) (styled_step hs (hos o (by simp)) a) b

/-! ## Legality of the calls -/

/-- the regions of the open backgrounds are those of the open schemes -/
def Tracks (s : SpecSt RD) (S : List Open) : Prop := s.stack.map (·.region) = S.map (·.1) ++ [none]

theorem tracks_cons {s : SpecSt RD} {S : List Open} (h : Tracks s S) : ∃ b r, s.stack = b :: r := by
  unfold Tracks at h
  cases hs : s.stack with
  | nil => rw [hs] at h; simp at h
  | cons b r => exact ⟨b, r, rfl⟩

theorem online_step (env : Styles RD) {s : SpecSt RD} {S T : List Open} {e : Ev} {l : Int} (hl : OnLine l e) (hc : ColOk e)
    (hS : Tracks s S) (hcur : s.cur = some l.toNat) (hn : nestStep S e = some T) :
    ∃ t, specRun env s (ops [e]) = some t ∧ Tracks t T ∧ t.cur = some l.toNat ∧ t.first = s.first ∧ t.n = s.n ∧
      (∀ M, M ≠ l.toNat → t.pics M = s.pics M) ∧ ∀ M, (s.pics M).isSome = true → (t.pics M).isSome = true := by
  obtain ⟨b, r, hst⟩ := tracks_cons hS
  have hdraw : ∀ f M, (s.pics M).isSome = true → (s.draw l.toNat f M).isSome = true := by
    intro f M hM
    simp only [SpecSt.draw]
    split
    · simpa using hM
    · exact hM
  have hoth : ∀ f M, M ≠ l.toNat → s.draw l.toNat f M = s.pics M := fun f M hM => draw_other s f hM
  cases e with
  | start l' => simp [OnLine] at hl
  | clear l' => simp [OnLine] at hl
  | fin l' => simp [OnLine] at hl
  | region l' sx ex rg =>
    simp only [OnLine] at hl
    subst hl
    simp only [nestStep, Option.some.injEq] at hn
    subst hn
    simp only [ops, List.filterMap_cons, op, List.filterMap_nil, specRun, specStep, hst]
    rw [if_pos ⟨hcur, hc.1, hc.2⟩]
    exact ⟨_, rfl, by unfold Tracks at hS ⊢; rw [hst] at hS; exact hS, hcur, rfl, rfl, hoth _, hdraw _⟩
  | enter l' sx ex rg sch =>
    simp only [OnLine] at hl
    subst hl
    simp only [nestStep, Option.some.injEq] at hn
    subst hn
    simp only [ops, List.filterMap_cons, op, List.filterMap_nil, specRun, specStep, hst]
    rw [if_pos ⟨hcur, hc⟩]
    refine ⟨_, rfl, ?_, hcur, rfl, rfl, ?_, ?_⟩
    · unfold Tracks at hS ⊢
      rw [hst] at hS
      show rg :: List.map (·.region) (b :: r) = rg :: (S.map (·.1) ++ [none])
      rw [hS]
    · intro M hM; dsimp only; split
      · exact hoth _ M hM
      · rfl
    · intro M hM; dsimp only; split
      · exact hdraw _ M hM
      · exact hM
  | pseudo l' rg sch =>
    simp only [OnLine] at hl
    subst hl
    simp only [nestStep, Option.some.injEq] at hn
    subst hn
    simp only [ops, List.filterMap_cons, op, List.filterMap_nil, specRun, specStep, hst]
    rw [if_pos ⟨hcur, by omega⟩]
    refine ⟨_, rfl, ?_, hcur, rfl, rfl, ?_, ?_⟩
    · unfold Tracks at hS ⊢
      rw [hst] at hS
      show rg :: List.map (·.region) (b :: r) = rg :: (S.map (·.1) ++ [none])
      rw [hS]
    · intro M hM; dsimp only; split
      · exact hoth _ M hM
      · rfl
    · intro M hM; dsimp only; split
      · exact hdraw _ M hM
      · exact hM
  | leave l' sx ex rg sch =>
    simp only [OnLine] at hl
    subst hl
    cases S with
    | nil => simp [nestStep] at hn
    | cons o S' =>
      simp only [nestStep] at hn
      split at hn
      · simp only [Option.some.injEq] at hn
        subst hn
        have hr : ∃ b' r', r = b' :: r' := by
          unfold Tracks at hS
          rw [hst] at hS
          cases r with
          | nil =>
            simp at hS
          | cons b' r' => exact ⟨b', r', rfl⟩
        obtain ⟨b', r', rfl⟩ := hr
        simp only [ops, List.filterMap_cons, op, List.filterMap_nil, specRun, specStep, hst]
        rw [if_pos ⟨hcur, hc⟩]
        refine ⟨_, rfl, ?_, hcur, rfl, rfl, ?_, ?_⟩
        · unfold Tracks at hS ⊢
          rw [hst] at hS
          exact (List.cons.inj hS).2
        · intro M hM; dsimp only; split
          · exact hoth _ M hM
          · rfl
        · intro M hM; dsimp only; split
          · exact hdraw _ M hM
          · exact hM
      · simp at hn

theorem online_run (env : Styles RD) {l : Int} (es : List Ev) : ∀ {s : SpecSt RD} {S T : List Open}, (∀ e ∈ es, OnLine l e) → (∀ e ∈ es, ColOk e) →
    Tracks s S → s.cur = some l.toNat → nest S es = some T →
    ∃ t, specRun env s (ops es) = some t ∧ Tracks t T ∧ t.cur = some l.toNat ∧ t.first = s.first ∧ t.n = s.n ∧
      (∀ M, M ≠ l.toNat → t.pics M = s.pics M) ∧ ∀ M, (s.pics M).isSome = true → (t.pics M).isSome = true := by
  induction es with
  | nil =>
    intro s S T _ _ hS hcur hn
    simp only [nest, Option.some.injEq] at hn
    subst hn
    exact ⟨s, rfl, hS, hcur, rfl, rfl, fun _ _ => rfl, fun _ h => h⟩
  | cons e es ih =>
    intro s S T hl hc hS hcur hn
    rw [nest, Option.bind_eq_some_iff] at hn
    obtain ⟨S1, h1, h2⟩ := hn
    obtain ⟨t1, a1, a2, a3, a4, a5, a6, a7⟩ := online_step env (hl e (by simp)) (hc e (by simp)) hS hcur h1
    obtain ⟨t, b1, b2, b3, b4, b5, b6, b7⟩ := ih (fun e he => hl e (List.mem_cons_of_mem _ he)) (fun e he => hc e (List.mem_cons_of_mem _ he)) a2 a3 h2
    refine ⟨t, ?_, b2, b3, by rw [b4, a4], by rw [b5, a5], fun M hM => by rw [b6 M hM, a6 M hM], fun M hM => b7 M (a7 M hM)⟩
    rw [ops_cons, specRun_append, a1]
    exact b1

/-- the calls for consecutive lines are legal; they draw exactly these lines -/
theorem lines_run (env : Styles RD) {from' : Int} (hf : 0 ≤ from') {n : Nat} {evs : List Ev} (h : Lines from' n evs) :
    ∀ {s : SpecSt RD} {S T : List Open}, (∀ e ∈ evs, ColOk e) → Tracks s S → nest S evs = some T →
    ∃ t, specRun env s (ops evs) = some t ∧ Tracks t T ∧ t.first = s.first ∧ t.n = s.n ∧
      (∀ M : Nat, ¬ (from' ≤ M ∧ (M : Int) < from' + n) → t.pics M = s.pics M) ∧
      ∀ M : Nat, from' ≤ M → (M : Int) < from' + n → inWin s.first s.n M → (t.pics M).isSome = true := by
  induction h with
  | nil =>
    intro s S T _ hS hn
    simp only [nest, Option.some.injEq] at hn
    subst hn
    exact ⟨s, rfl, hS, rfl, rfl, fun _ _ => rfl, fun M h1 h2 => by omega⟩
  | @next n evs b _ hb ih =>
    intro s S T hc hS hn
    rw [TextParser.nest_append, Option.bind_eq_some_iff] at hn
    obtain ⟨S1, h1, h2⟩ := hn
    obtain ⟨t1, a1, a2, a3, a4, a5, a6⟩ := ih (fun e he => hc e (by simp [he])) hS h1
    obtain ⟨bg, r, hst⟩ := tracks_cons a2
    have h2 : nest S1 b = some T := h2
    have hcl : specRun env t1 (ops [Ev.clear (from' + n)]) = some { t1 with
        cur := some (from' + n).toNat
        pics := fun M => if M = (from' + n).toNat ∧ inWin t1.first t1.n (from' + n).toNat
                         then some { layers := [⟨0, none, bg⟩], specials := [] } else t1.pics M } := by
      simp only [ops, List.filterMap_cons, op, List.filterMap_nil, specRun, specStep, hst, Option.bind_some]
    obtain ⟨t, b1, b2, b3, b4, b5, b6, b7⟩ := online_run env b (l := from' + n) (s := { t1 with
        cur := some (from' + n).toNat
        pics := fun M => if M = (from' + n).toNat ∧ inWin t1.first t1.n (from' + n).toNat
                         then some { layers := [⟨0, none, bg⟩], specials := [] } else t1.pics M }) (S := S1) (T := T) hb
      (fun e he => hc e (by simp [he])) a2 rfl h2
    refine ⟨t, ?_, b2, by rw [b4]; exact a3, by rw [b5]; exact a4, ?_, ?_⟩
    · rw [ops_append, specRun_append, a1, Option.bind_some, ops_cons, specRun_append, hcl]
      exact b1
    · intro M hM
      have hM1 : M ≠ (from' + n).toNat := by omega
      rw [b6 M hM1]
      dsimp only
      rw [if_neg (by simp [hM1])]
      exact a5 M (by omega)
    · intro M hM1 hM2 hw
      apply b7 M
      dsimp only
      by_cases hM : M = (from' + n).toNat
      · rw [if_pos ⟨hM, by rw [← hM, a3, a4]; exact hw⟩]; rfl
      · rw [if_neg (by simp [hM])]
        exact a6 M hM1 (by omega) hw

end Verif.Whole
