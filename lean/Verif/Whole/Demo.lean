import Verif.Whole.Props
import Verif.TextParser.Demo2
/-!
# The whole editor at work; where the colours differ
-/
namespace Verif.Whole.Demo
open Verif.TextParser (Ev PState Result Parses Text fresh Pure RangesOk Opaque Node parse R Match Env)
open Verif.TextParser.Demo (env rx at' find' nodes line p0 full evsOf cacheOf okk blk)
open Verif.LineRegions (LR Store Payload Op)
open Verif.LineRegions.Spec
open Verif.Whole

/-! ## The conditions of C58 are met -/

theorem at_ok (c : Nat) (t : Text) (pos len : Int) (h : (at' c t pos len).1 = true) : (at' c t pos len).2.Ok := by
  unfold at' at h ⊢
  split
  · rename_i hc
    refine ⟨⟨hc.1, by show pos ≤ pos + 1; omega⟩, ?_⟩
    intro g hg
    simp at hg
  · rename_i hc
    rw [if_neg hc] at h
    simp at h

theorem find_ok (c : Nat) (t : Text) (len : Int) : ∀ (n : Nat) (pos : Int), (find' c t len n pos).1 = true → (find' c t len n pos).2.Ok
  | 0, _, h => by simp [find'] at h
  | n + 1, pos, h => by
    unfold find' at h ⊢
    split
    · rename_i hc; exact at_ok c t pos len hc
    · rename_i hc
      rw [if_neg hc] at h
      exact find_ok c t len n (pos + 1) h

theorem ranges : RangesOk env where
  rx := by
    intro _ q h
    show (rx q).2.Ok
    have h : (rx q).1 = true := h
    unfold rx at h ⊢
    split
    · rename_i hc; rw [if_pos hc] at h; exact at_ok _ _ _ _ h
    · rename_i hc; rw [if_neg hc] at h; exact find_ok _ _ _ _ _ h
  kw := by intro _ _ _ _ _ _ _ h; cases h
  maxBlock := by show (0 : Int) ≤ 1000; omega

theorem opaq : Opaque env := by
  intro s b h
  have h : Node.block b ∈ nodes s := h
  unfold nodes at h
  split at h <;> simp [blk] at h <;> subst h <;> rfl

/-- a style: foreground and background colour, each of which may be missing -/
abbrev Style := Option Nat × Option Nat

instance : DecidableEq Style := inferInstance
instance : DecidableEq (Option Style) := inferInstance
instance : DecidableEq (Int × Int × Option Style) := inferInstance
instance : DecidableEq (Int × Int × Option Nat × Option Nat × Option Style) := inferInstance
instance : DecidableEq (Option (List (Int × Int × Option Nat × Option Nat × Option Style))) := inferInstance
instance : DecidableEq (Option (List (Option (Option Style)) × List (Int × Int × Option Style))) := inferInstance

/-- a missing colour is taken from the surrounding style; regions 7 and 8 (the brackets) have a foreground only, region 3 has none -/
def styles : Styles Style where
  mapper := some fun r => if r = 3 then none else if r = 7 ∨ r = 8 then some (some r, none) else some (some (10 * r), some (100 * r))
  assignParent a b := (a.1.or (b.bind (·.1)), a.2.or (b.bind (·.2)))
  isSpecial r := r == 8
  background := none

theorem calm : Calm styles where
  self := by
    rintro ⟨a, b⟩
    cases a <;> cases b <;> rfl
  bg := by intro h; cases h

/-- the text `a(`, `[x`, `]x`, `)` -/
def text1 : Int → Option Text := line
/-- line 2 changed to `]]` -/
def text2 : Int → Option Text := fun l => if l = 2 then some [93, 93] else line l

def parsesB (t : Int → Option Text) (base : Nat) (n : Int) : Bool :=
  match parse (env.text t) 200 (fresh base) 0 n .update with
  | .ok r => !r.hit
  | .error _ => false

theorem tame_of {t : Int → Option Text} {base : Nat} {n : Int} (h0 : 0 ≤ n) (h1 : n ≤ 0x7FFFFFF) (h : parsesB t base n = true) : Tame env base t n := by
  refine ⟨h0, h1, ?_⟩
  unfold parsesB at h
  cases hp : parse (env.text t) 200 (fresh base) 0 n .update with
  | error _ => rw [hp] at h; simp at h
  | ok r => rw [hp] at h; exact ⟨r, TextParser.parses_of_parse hp, by simpa using h⟩

theorem tame1 (base : Nat) (h : base = 0 ∨ base = 1) : Tame env base text1 4 :=
  tame_of (by omega) (by omega) (by rcases h with rfl | rfl <;> decide +kernel)
theorem tame2 (base : Nat) (h : base = 0 ∨ base = 1) : Tame env base text2 4 :=
  tame_of (by omega) (by omega) (by rcases h with rfl | rfl <;> decide +kernel)

/-! ## What a validation leaves alone -/

structure Keeps {RD : Type} (e e' : Ed RD) : Prop where
  text : e'.text = e.text
  lineCount : e'.lineCount = e.lineCount
  base : e'.parser.base = e.parser.base
  regs : e'.regs = e.regs
  wSize : e'.wSize = e.wSize
  backParse : e'.backParse = e.backParse

theorem Keeps.refl {RD : Type} (e : Ed RD) : Keeps e e := ⟨rfl, rfl, rfl, rfl, rfl, rfl⟩

theorem run_keeps {RD : Type} {env : Env} {e e' : Ed RD} {a b : Int} {m : Editor.Mode} (h : e.run env a b m = some e') : Keeps e e' ∧ e'.lrSize = e.lrSize := by
  unfold Ed.run at h
  dsimp only at h
  generalize (if b > e.lineCount then e.lineCount else b) = to1 at h
  split at h
  · simp only [Option.map_eq_some_iff] at h
    obtain ⟨⟨e1, stop⟩, h1, h2⟩ := h
    unfold Ed.parse at h1
    simp only [Option.bind_eq_some_iff, Option.map_eq_some_iff, Prod.mk.injEq] at h1
    obtain ⟨r, hr, st, _, h3, _⟩ := h1
    have hb : r.after.base = e.parser.base := by
      unfold parseOf at hr
      split at hr
      · rename_i hx
        simp only [Option.some.injEq] at hr
        subst hr
        exact (TextParser.parses_base hx.choose_spec).1
      · simp at hr
    subst h3
    cases m <;> subst h2 <;> exact ⟨⟨rfl, rfl, hb, rfl, rfl, rfl⟩, rfl⟩
  · simp only [Option.some.injEq] at h
    subst h
    exact ⟨.refl e, rfl⟩

theorem validate_keeps {RD : Type} {env : Env} {e e' : Ed RD} {l : Int} {rb : Bool} (h : e.validate env l rb = some e') :
    Keeps e e' ∧ e'.lrSize = e.wSize * 2 := by
  unfold Ed.validate at h
  simp only [Option.bind_eq_some_iff] at h
  obtain ⟨⟨e1, lay⟩, h1, ⟨e3, plan⟩, h2, h3⟩ := h
  obtain ⟨k, kl⟩ := run_keeps h3
  have k1 : Keeps e e1 ∧ e1.lrSize = e.wSize * 2 := by
    unfold Ed.fixSize at h1
    split at h1
    · simp only [Option.map_eq_some_iff, Prod.mk.injEq] at h1
      obtain ⟨st, _, h1, _⟩ := h1
      subst h1
      exact ⟨⟨rfl, rfl, rfl, rfl, rfl, rfl⟩, rfl⟩
    · simp only [Option.some.injEq, Prod.mk.injEq] at h1
      obtain ⟨h1, _⟩ := h1
      subst h1
      exact ⟨.refl _, by omega⟩
  have k2 : ∀ x, Keeps e1 (e1.fixStart x) ∧ (e1.fixStart x).lrSize = e1.lrSize := by
    intro x
    unfold Ed.fixStart
    split <;> exact ⟨⟨rfl, rfl, rfl, rfl, rfl, rfl⟩, rfl⟩
  have k3 : Keeps (e1.fixStart (Editor.target e.lineCount l)) e3 ∧ e3.lrSize = (e1.fixStart (Editor.target e.lineCount l)).lrSize := by
    unfold Ed.fixWindow at h2
    split at h2
    · split at h2
      · simp at h2
      · simp only [Option.map_eq_some_iff, Prod.mk.injEq] at h2
        obtain ⟨st, _, h2, _⟩ := h2
        subst h2
        exact ⟨⟨rfl, rfl, rfl, rfl, rfl, rfl⟩, rfl⟩
    · simp only [Option.some.injEq, Prod.mk.injEq] at h2
      obtain ⟨h2, _⟩ := h2
      subst h2
      exact ⟨.refl _, rfl⟩
  have k2 := k2 (Editor.target e.lineCount l)
  refine ⟨⟨?_, ?_, ?_, ?_, ?_, ?_⟩, by rw [kl, k3.2, k2.2, k1.2]⟩
  · rw [k.text, k3.1.text, k2.1.text, k1.1.text]
  · rw [k.lineCount, k3.1.lineCount, k2.1.lineCount, k1.1.lineCount]
  · rw [k.base, k3.1.base, k2.1.base, k1.1.base]
  · rw [k.regs, k3.1.regs, k2.1.regs, k1.1.regs]
  · rw [k.wSize, k3.1.wSize, k2.1.wSize, k1.1.wSize]
  · rw [k.backParse, k3.1.backParse, k2.1.backParse, k1.1.backParse]

/-! ## A history -/

theorem step_ex {e : Ed Style} (h : Hist env (Ed.init 0 styles text1) e) (op : EOp Style) (hop : Legal env e op) :
    ∃ e', e.step env op = some e' ∧ Hist env (Ed.init 0 styles text1) e' := by
  obtain ⟨e', h1⟩ := C58_legal_operations_succeed env TextParser.Demo.env_pure ranges 0 styles calm text1 e h op hop
  exact ⟨e', h1, .snoc op h hop h1⟩

/-- a text is loaded and shown, an idle job runs, line 2 changes, another type is tried, the window moves to line 2 -/
theorem history : ∃ e, Hist env (Ed.init 0 styles text1) e ∧ e.text = text2 ∧ e.lineCount = 4 ∧ e.parser.base = 0 ∧ e.regs = styles ∧ e.wStart = 2 ∧
    e.wSize = 1 ∧ e.backParse = -1 := by
  obtain ⟨e1, s1, h1⟩ := step_ex .nil (.edit 0 text1 4) ⟨by omega, by omega, fun _ _ => rfl, tame1 0 (Or.inl rfl)⟩
  cases s1
  obtain ⟨e3, s3, h3⟩ := step_ex h1 (.query 0) ⟨by omega, Or.inl (by show (0 : Int) < 4; omega)⟩
  have k3 : Keeps ({ Ed.init 0 styles text1 with lineCount := 4 } : Ed Style) e3 ∧ e3.lrSize = 40 := by
    simp only [Ed.step, Ed.getLineRegions] at s3
    rw [if_neg (by intro h; have h := h.1; simp [Ed.init] at h)] at s3
    simp only [Option.map_map, Option.map_eq_some_iff, Function.comp_apply] at s3
    obtain ⟨e', hv, rfl⟩ := s3
    obtain ⟨a, b⟩ := validate_keeps hv
    exact ⟨⟨a.text, a.lineCount, a.base, a.regs, a.wSize, a.backParse⟩, by rw [b]; rfl⟩
  obtain ⟨e4, s4, h4⟩ := step_ex h3 (.idle 10) (fun _ => by rw [k3.2, k3.1.wSize]; rfl)
  have k4 : Keeps e3 e4 := by
    simp only [Ed.step, Ed.idleJob] at s4
    split at s4
    · exact (validate_keeps s4).1
    · cases s4; exact .refl _
  have t4 : e4.text = text1 := by rw [k4.text, k3.1.text]; rfl
  have c4 : e4.lineCount = 4 := by rw [k4.lineCount, k3.1.lineCount]
  have b4 : e4.parser.base = 0 := by rw [k4.base, k3.1.base]; rfl
  obtain ⟨e5, s5, h5⟩ := step_ex h4 (.edit 2 text2 4) ⟨by omega, by omega, (by
    intro i hi; rw [t4]; show (if i = 2 then _ else line i) = line i; rw [if_neg (by omega)]), by rw [b4]; exact tame2 0 (Or.inl rfl)⟩
  cases s5
  obtain ⟨e6, s6, h6⟩ := step_ex h5 (.setType 1) (tame2 1 (Or.inr rfl))
  cases s6
  obtain ⟨e7, s7, h7⟩ := step_ex h6 (.setType 0) (tame2 0 (Or.inl rfl))
  cases s7
  obtain ⟨e8, s8, h8⟩ := step_ex h7 (.setStyles styles) calm
  cases s8
  obtain ⟨e9, s9, h9⟩ := step_ex h8 (.visible 2 1) ⟨by omega, by omega⟩
  cases s9
  refine ⟨_, h9, rfl, rfl, rfl, rfl, rfl, rfl, ?_⟩
  show e4.backParse = -1
  rw [k4.backParse, k3.1.backParse]; rfl

/-- what is drawn from scratch: styles at columns 0, 1, 2 of line 2 of the new text `]]`, and the special regions -/
def scratch (t : Int → Option Text) (base : Nat) (n : Int) (L : Nat) : Option (List (Option (Option Style)) × List (Int × Int × Option Style)) :=
  match parse (env.text t) 200 (fresh base) 0 n .update with
  | .ok r => (specRun styles (blank n.toNat) (ops r.evs)).bind fun s => (s.pics L).map fun p =>
      ([0, 1, 2].map fun x : Int => (p.shown x).map (·.rdef), p.specials.map fun t => (t.1, t.2.1, t.2.2.rdef))
  | .error _ => none

theorem scratch_paints {t : Int → Option Text} {base : Nat} {n : Int} {L : Nat} {p : Picture Style} (h : Paints env base styles t n L p) :
    scratch t base n L = some ([0, 1, 2].map fun x : Int => (p.shown x).map (·.rdef), p.specials.map fun t => (t.1, t.2.1, t.2.2.rdef)) ∨
      ∀ r, parse (env.text t) 200 (fresh base) 0 n .update ≠ .ok r := by
  cases hp : parse (env.text t) 200 (fresh base) 0 n .update with
  | error _ => right; intro r h; cases h
  | ok r =>
    left
    obtain ⟨r', s, a1, _, a3, a4⟩ := h
    have := a1.det (TextParser.parses_of_parse hp)
    subst this
    unfold scratch
    rw [hp]
    simp [a3, a4]

/-- C58 at work: after that history the editor answers the query for line 2 (`]]` inside both blocks) with regions that show the colours of the
inner block up to the bracket, those of the outer one after it, and one special region for the bracket. -/
example : ∃ e e' l, Hist env (Ed.init 0 styles text1) e ∧ e.getLineRegions env 2 = some (e', l) ∧
    (∀ t ∈ l, t.showsAt 0 → t.pay.rdef = some (some 20, some 200)) ∧ (∀ t ∈ l, t.showsAt 1 → t.pay.rdef = some (some 10, some 100)) ∧
    (l.filter (·.special)).map (fun t => (t.start, t.stop, t.pay.rdef)) = [(0, 1, some (some 8, some 200))] := by
  obtain ⟨e, h, e1, e2, e3, e4, e5, e6, e7⟩ := history
  obtain ⟨e', l, p, a1, a2, a3⟩ := C58_query_shows_text_partial env TextParser.Demo.env_pure ranges 0 styles calm text1 e h 2 (by omega) (by omega) (by omega)
    (Or.inl (by omega)) (Or.inl (by omega))
  rw [e1, e2, e3, e4] at a2
  have hs : scratch text2 0 4 2 = some ([some (some (some 20, some 200)), some (some (some 10, some 100)), some (some (some 10, some 100))],
      [(0, 1, some (some 8, some 200))]) := by decide +kernel
  have hp : okk (parse (env.text text2) 200 (fresh 0) 0 4 .update) = true := by decide +kernel
  rcases scratch_paints a2 with h1 | h1
  · rw [show (2 : Int).toNat = 2 from rfl, hs] at h1
    simp only [List.map_cons, List.map_nil, Option.some.injEq, Prod.mk.injEq, List.cons.injEq, and_true] at h1
    obtain ⟨⟨x0, x1, _⟩, x3⟩ := h1
    refine ⟨e, e', l, h, a1, ?_, ?_, ?_⟩
    · intro t ht hsh
      obtain ⟨y, y1, y2, _⟩ := a3.style 0 t ht hsh
      rw [show ((0 : Nat) : Int) = 0 from rfl] at y1
      rw [y1] at x0
      rw [y2]
      simpa using x0.symm
    · intro t ht hsh
      obtain ⟨y, y1, y2, _⟩ := a3.style 1 t ht hsh
      rw [show ((1 : Nat) : Int) = 1 from rfl] at y1
      rw [y1] at x1
      rw [y2]
      simpa using x1.symm
    · have := a3.special
      have h2 := congrArg (List.map fun t : Int × Int × Option Style × Option Nat => (t.1, t.2.1, t.2.2.1)) this
      simp only [List.map_map, Function.comp_def] at h2
      rw [h2, ← x3]
  · cases hq : parse (env.text text2) 200 (fresh 0) 0 4 .update with
    | error _ => rw [hq] at hp; simp [okk] at hp
    | ok r => exact absurd hq (h1 r)

/-! ## What is not the same -/

/-- start, end, region, scheme and style of the entries a new compact store gives for a line after the calls of a parse -/
def answer (st : Styles Style) (evs : List Ev) (L : Nat) : Option (List (Int × Int × Option Nat × Option Nat × Option Style)) :=
  (Store.init.run true st (.resize 10 :: .clear :: ops evs)).map fun s => (s.lineRegions L).map fun t =>
    (t.start, t.stop, t.pay.region, t.pay.scheme, t.pay.rdef)

/-- the parser after a parse -/
def afterOf (r : R Result) : PState := match r with | .ok r => r.after | .error _ => p0

theorem of_okk {r : R Result} (h : okk r = true) : ∃ x, r = .ok x := by
  cases r with
  | error _ => simp [okk] at h
  | ok x => exact ⟨x, rfl⟩

/-- C58 fails for the field `scheme` of the regions: after a resumed parse the text after the inner block, which belongs to the outer block
(scheme 1), is said to belong to scheme 2. -/
theorem C58_violated_scheme :
    ∃ r1 r2, parse env 200 p0 0 4 .update = .ok r1 ∧ parse env 200 r1.after 2 1 .read = .ok r2 ∧
      answer styles r1.evs 2 = some [(0, 1, some 2, some 2, some (some 20, some 200)), (1, 2, some 3, some 1, some (some 10, some 100)),
        (2, -1, some 1, some 1, some (some 10, some 100)), (0, 1, some 8, some 2, some (some 8, some 200))] ∧
      answer styles r2.evs 2 = some [(0, 1, some 2, some 2, some (some 20, some 200)), (1, 2, some 3, some 2, some (some 10, some 100)),
        (2, -1, some 1, some 2, some (some 10, some 100)), (0, 1, some 8, some 2, some (some 8, some 200))] := by
  obtain ⟨r1, h1⟩ := of_okk (r := parse env 200 p0 0 4 .update) (by decide +kernel)
  obtain ⟨r2, h2⟩ := of_okk (r := parse env 200 (afterOf (parse env 200 p0 0 4 .update)) 2 1 .read) (by decide +kernel)
  have h3 : answer styles (evsOf (parse env 200 p0 0 4 .update)) 2 = some [(0, 1, some 2, some 2, some (some 20, some 200)),
      (1, 2, some 3, some 1, some (some 10, some 100)), (2, -1, some 1, some 1, some (some 10, some 100)), (0, 1, some 8, some 2, some (some 8, some 200))] := by
    decide +kernel
  have h4 : answer styles (evsOf (parse env 200 (afterOf (parse env 200 p0 0 4 .update)) 2 1 .read)) 2 =
      some [(0, 1, some 2, some 2, some (some 20, some 200)), (1, 2, some 3, some 2, some (some 10, some 100)),
        (2, -1, some 1, some 2, some (some 10, some 100)), (0, 1, some 8, some 2, some (some 8, some 200))] := by decide +kernel
  rw [h2] at h4
  rw [h1] at h2 h3
  exact ⟨r1, r2, h1, h2, h3, h4⟩

/-- like `nodes`, but the inner block has no region -/
def nodesT : Nat → List Node
  | 0 => [blk 1 40 41 (some 1)]
  | 1 => [blk 2 91 93 none]
  | _ => []

def envT : Env := ⟨nodesT, fun _ q => rx q, fun _ _ _ _ _ => none, fun _ => false, line, 1000, 100, false, 0⟩

/-- C58 fails for the field `region` if a block of the grammar has none: a line that begins inside such a block, nested in one with region 1,
begins without a region after a complete parse and with region 1 after a resumed one. The styles are the same. -/
theorem C58_violated_region :
    ∃ r1 r2, parse envT 200 p0 0 4 .update = .ok r1 ∧ parse envT 200 r1.after 2 1 .read = .ok r2 ∧
      answer styles r1.evs 2 = some [(0, -1, none, some 2, some (some 10, some 100)), (0, 1, some 8, some 2, some (some 8, some 100))] ∧
      answer styles r2.evs 2 = some [(0, -1, some 1, some 2, some (some 10, some 100)), (0, 1, some 8, some 2, some (some 8, some 100))] := by
  obtain ⟨r1, h1⟩ := of_okk (r := parse envT 200 p0 0 4 .update) (by decide +kernel)
  obtain ⟨r2, h2⟩ := of_okk (r := parse envT 200 (afterOf (parse envT 200 p0 0 4 .update)) 2 1 .read) (by decide +kernel)
  have h3 : answer styles (evsOf (parse envT 200 p0 0 4 .update)) 2 =
      some [(0, -1, none, some 2, some (some 10, some 100)), (0, 1, some 8, some 2, some (some 8, some 100))] := by
    decide +kernel
  have h4 : answer styles (evsOf (parse envT 200 (afterOf (parse envT 200 p0 0 4 .update)) 2 1 .read)) 2 =
      some [(0, -1, some 1, some 2, some (some 10, some 100)), (0, 1, some 8, some 2, some (some 8, some 100))] := by decide +kernel
  rw [h2] at h4
  rw [h1] at h2 h3
  exact ⟨r1, r2, h1, h2, h3, h4⟩

end Verif.Whole.Demo
