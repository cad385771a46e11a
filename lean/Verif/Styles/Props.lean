import Verif.Styles.Spec
/-! # C15, C16, C38: styles -/
namespace Verif.Styles

variable {V : Type}

theorem Nearest.unique {R : Nat → Reg} {defs : Nat → Option Nat} {id d : Nat} (h : Nearest R defs id d) :
    ∀ {d'}, Nearest R defs id d' → d = d' := by
  induction h with
  | own h1 =>
    intro d' h'
    cases h' with
    | own h2 => rw [h1] at h2; exact Option.some.inj h2
    | inherited h2 => rw [h1] at h2; cases h2
  | inherited h1 h2 _ ih =>
    intro d' h'
    cases h' with
    | own h3 => rw [h1] at h3; cases h3
    | inherited _ h4 h5 =>
      rw [h2] at h4
      cases h4
      exact ih h5

/-- the cache only holds right answers -/
def CacheOk (R : Nat → Reg) (defs : Nat → Option Nat) (cache : List (Option Nat)) : Prop :=
  ∀ i d, cache[i]? = some (some d) → Nearest R defs i d

theorem cacheOk_resize {R : Nat → Reg} {defs : Nat → Option Nat} {c : List (Option Nat)} (h : CacheOk R defs c) (n : Nat) :
    CacheOk R defs (resize n c) := by
  intro i d hi
  unfold resize at hi
  rw [List.getElem?_append] at hi
  split at hi
  · rw [List.getElem?_take] at hi
    split at hi
    · exact h i d hi
    · cases hi
  · rw [List.getElem?_replicate] at hi
    split at hi <;> simp at hi

theorem resize_length {n : Nat} {c : List (Option Nat)} (h : c.length ≤ n) : (resize n c).length = n := by
  unfold resize; simp; omega

theorem cacheOk_set {R : Nat → Reg} {defs : Nat → Option Nat} {c : List (Option Nat)} (h : CacheOk R defs c) {i : Nat}
    {v : Option Nat} (hv : ∀ d, v = some d → Nearest R defs i d) : CacheOk R defs (c.set i v) := by
  intro j d hj
  rw [List.getElem?_set] at hj
  split at hj
  · rename_i hij
    subst hij
    split at hj
    · exact hv d (Option.some.inj hj)
    · cases hj
  · exact h j d hj

/-- the lookup succeeds unless it is the very first one and for region 0 -/
theorem lookup_spec {R : Nat → Reg} (hR : ParentsFirst R) {defs : Nat → Option Nat} (fuel : Nat) :
    ∀ (cache : List (Option Nat)) (id : Nat), id < fuel → CacheOk R defs cache → (cache ≠ [] ∨ id ≠ 0) →
    ∃ r c, lookup R defs fuel cache id = some (r, c) ∧ CacheOk R defs c ∧ c ≠ [] ∧ cache.length ≤ c.length ∧
      ∀ d, r = some d ↔ Nearest R defs id d := by
  induction fuel with
  | zero => intro _ _ h; omega
  | succ fuel ih =>
    intro cache id hid hc hne
    simp only [lookup]
    cases hcv : (if id < cache.length then cache[id]?.join else none) with
    | some d =>
      refine ⟨some d, cache, rfl, hc, ?_, Nat.le_refl _, ?_⟩
      · intro h; subst h; simp at hcv
      · intro d'
        have hd : Nearest R defs id d := by
          by_cases hl : id < cache.length
          · rw [if_pos hl] at hcv
            apply hc id d
            cases hx : cache[id]? with
            | none => rw [hx] at hcv; cases hcv
            | some y => rw [hx] at hcv; simp at hcv; rw [hcv]
          · rw [if_neg hl] at hcv; cases hcv
        constructor
        · intro h; cases h; exact hd
        · intro h; rw [hd.unique h]
    | none =>
      simp only
      generalize hc1 : (if cache.length < id + 1 then resize (id * 2) cache else cache) = cache1
      have hok1 : CacheOk R defs cache1 := by
        rw [← hc1]; split
        · exact cacheOk_resize hc _
        · exact hc
      have hlen1 : cache.length ≤ cache1.length ∧ id < cache1.length := by
        rw [← hc1]
        by_cases hl : cache.length < id + 1
        · rw [if_pos hl]
          have h0 : id ≠ 0 := by
            intro h
            subst h
            have : cache = [] := List.eq_nil_of_length_eq_zero (by omega)
            rcases hne with h | h
            · exact h this
            · exact h rfl
          rw [resize_length (by omega)]
          omega
        · rw [if_neg hl]; omega
      have hne1 : cache1 ≠ [] := by
        intro h
        have := hlen1.2
        rw [h] at this
        simp at this
      cases hd : defs (R id).name with
      | some d =>
        simp only
        have hn : Nearest R defs id d := .own hd
        refine ⟨some d, cache1.set id (some d), ?_, cacheOk_set hok1 ?_, ?_, ?_, ?_⟩
        · simp [setAt, hlen1.2]
        · intro d' h; cases h; exact hn
        · intro h
          have := congrArg List.length h
          simp at this
          exact hne1 this
        · simp; exact hlen1.1
        · intro d'
          constructor
          · intro h; cases h; exact hn
          · intro h; rw [hn.unique h]
      | none =>
        simp only
        cases hp : (R id).parent with
        | none =>
          refine ⟨none, cache1, rfl, hok1, hne1, hlen1.1, ?_⟩
          intro d
          constructor
          · intro h; cases h
          · intro h
            cases h with
            | own h => rw [hd] at h; cases h
            | inherited _ h => rw [hp] at h; cases h
        | some p =>
          have hplt := hR id p hp
          obtain ⟨r, c, h1, h2, h3, h4, h5⟩ := ih cache1 p (by omega) hok1 (Or.inl hne1)
          simp only [h1]
          have hiff : ∀ d, r = some d ↔ Nearest R defs id d := by
            intro d
            rw [h5 d]
            constructor
            · intro h; exact .inherited hd hp h
            · intro h
              cases h with
              | own h => rw [hd] at h; cases h
              | inherited _ h1 h2 => rw [hp] at h1; cases h1; exact h2
          refine ⟨r, c.set id r, ?_, cacheOk_set h2 (fun d h => (hiff d).1 h), ?_, ?_, hiff⟩
          · have : id < c.length := by omega
            simp [setAt, this]
          · intro h
            have := congrArg List.length h
            simp at this
            exact h3 this
          · simp; omega

/-- the operations are lookups only -/
def Gets : List (Op V) → Prop
  | [] => True
  | .get _ :: r => Gets r
  | _ :: _ => False

/-- the first lookup is not for region 0 -/
def FirstOk : List (Op V) → Prop
  | .get id :: _ => id ≠ 0
  | _ => True

/-- **C15 (part).** Whatever lookups were made before on the mapper (the styles being unchanged and the very first lookup
not being for region number 0), looking up a region gives its own style or that of the nearest ancestor having one, null
exactly if there is none; no lookup throws. -/
theorem C15_lookup_finds_nearest_style_partial (R : Nat → Reg) (hR : ParentsFirst R) (m : Mapper V) (hm : m.cache = [])
    (before : List (Op V)) (hg : Gets before) (id : Nat) (hf : FirstOk (before ++ [.get id])) :
    ∃ m' m'' r, run R m before = some m' ∧ step R m' (.get id) = some (m'', r) ∧
      ∀ d, r = some d ↔ Nearest R m.defs id d := by
  have key : ∀ (ops : List (Op V)) (m : Mapper V), Gets ops → CacheOk R m.defs m.cache →
      (m.cache ≠ [] ∨ FirstOk (ops ++ [.get id])) →
      ∃ m' m'' r, run R m ops = some m' ∧ step R m' (.get id) = some (m'', r) ∧
        ∀ d, r = some d ↔ Nearest R m.defs id d := by
    intro ops
    induction ops with
    | nil =>
      intro m _ hc hne
      obtain ⟨r, c, h1, _, _, _, h5⟩ := lookup_spec hR (id + 1) m.cache id (by omega) hc hne
      exact ⟨m, { m with cache := c }, r, rfl, by simp [step, h1], h5⟩
    | cons o t ih =>
      intro m hg hc hne
      cases o with
      | set => exact False.elim hg
      | assign => exact False.elim hg
      | get j =>
        have hne' : m.cache ≠ [] ∨ j ≠ 0 := hne
        obtain ⟨r, c, h1, h2, h3, _, _⟩ := lookup_spec hR (j + 1) m.cache j (by omega) hc hne'
        obtain ⟨m', m'', r', g1, g2, g3⟩ := ih { m with cache := c } hg h2 (Or.inl h3)
        refine ⟨m', m'', r', ?_, g2, g3⟩
        simp only [run, step, h1, Option.map_some, Option.bind_some]
        exact g1
  exact key before m hg (by rw [hm]; intro i d h; simp at h) (Or.inr hf)

/-- **C15 violated.** The first lookup on a fresh mapper for region number 0 (with a style) throws: the cache is resized to
`0 * 2` entries (RegionMapper.cpp:28-30). -/
theorem C15_violated_region_zero :
    (step (fun _ => ⟨7, none⟩) ((Mapper.empty Nat).define 7 99) (.get 0)).isNone = true := by decide +kernel

/-! ## C38 -/

/-- names point to different live objects below the allocation mark -/
def HeapOk (m : Mapper V) : Prop :=
  (∀ n p, m.defs n = some p → p < m.next ∧ (m.heap p).isSome) ∧
  (∀ n n' p, m.defs n = some p → m.defs n' = some p → n = n')

theorem define_ok {m : Mapper V} (h : HeapOk m) (name : Nat) (v : V) : HeapOk (m.define name v) := by
  constructor
  · intro n p hp
    simp only [Mapper.define] at hp ⊢
    by_cases hn : n = name
    · rw [if_pos hn] at hp
      cases hp
      simp
    · rw [if_neg hn] at hp
      have h1 := h.1 n p hp
      refine ⟨by omega, ?_⟩
      rw [if_neg (by omega)]
      by_cases hq : m.defs name = some p
      · exact absurd (h.2 n name p hp hq) hn
      · rw [if_neg hq]; exact h1.2
  · intro n n' p h1 h2
    simp only [Mapper.define] at h1 h2
    by_cases hn : n = name <;> by_cases hn' : n' = name
    · rw [hn, hn']
    · rw [if_pos hn] at h1
      rw [if_neg hn'] at h2
      cases h1
      have := (h.1 n' _ h2).1
      omega
    · rw [if_pos hn'] at h2
      rw [if_neg hn] at h1
      cases h2
      have := (h.1 n _ h1).1
      omega
    · rw [if_neg hn] at h1
      rw [if_neg hn'] at h2
      exact h.2 n n' p h1 h2

theorem define_byName {m : Mapper V} (h : HeapOk m) (name : Nat) (v : V) (n : Nat) :
    (m.define name v).byName n = if name = n then some v else m.byName n := by
  unfold Mapper.byName
  by_cases hn : n = name
  · subst hn; simp [Mapper.define]
  · have hn' : ¬ name = n := fun e => hn e.symm
    simp only [Mapper.define, if_neg hn, if_neg hn']
    cases hd : m.defs n with
    | none => rfl
    | some p =>
      have h1 := (h.1 n p hd).1
      simp only [Option.bind_some]
      rw [if_neg (by omega)]
      by_cases hq : m.defs name = some p
      · exact absurd (h.2 n name p hd hq) hn
      · rw [if_neg hq]

theorem byName_frame {R : Nat → Reg} {m m' : Mapper V} {id : Nat} {r : Option Nat}
    (h : step R m (.get id) = some (m', r)) : m'.defs = m.defs ∧ m'.heap = m.heap ∧ m'.next = m.next := by
  simp only [step] at h
  cases hl : lookup R m.defs (id + 1) m.cache id with
  | none => rw [hl] at h; cases h
  | some x => rw [hl] at h; cases h; exact ⟨rfl, rfl, rfl⟩

/-- **C38 (by name).** After any history of definitions (`setRegionDefine`), loads and lookups that ran, looking a style up
by name gives the last value defined for that name — a live object — and nothing for a name never defined. -/
theorem C38_last_definition_wins (R : Nat → Reg) (ops : List (Op V)) (m : Mapper V)
    (h : run R (Mapper.empty V) ops = some m) (n : Nat) : m.byName n = lastDef n ops none := by
  have key : ∀ (ops : List (Op V)) (m0 m : Mapper V), HeapOk m0 → run R m0 ops = some m →
      m.byName n = lastDef n ops (m0.byName n) := by
    intro ops
    induction ops with
    | nil => intro m0 m _ h; cases h; rfl
    | cons o t ih =>
      intro m0 m hok h
      cases o with
      | set name v =>
        simp only [run, step, Option.bind_some] at h
        rw [ih _ m (define_ok hok name v) h, define_byName hok]
        rfl
      | assign name v =>
        simp only [run, step, Option.bind_some] at h
        rw [ih _ m (define_ok hok name v) h, define_byName hok]
        rfl
      | get id =>
        simp only [run] at h
        cases hs : step R m0 (.get id) with
        | none => rw [hs] at h; cases h
        | some x =>
          obtain ⟨m1, r⟩ := x
          rw [hs] at h
          simp only [Option.bind_some] at h
          obtain ⟨h1, h2, h3⟩ := byName_frame hs
          have hok1 : HeapOk m1 := by
            unfold HeapOk; rw [h1, h2, h3]; exact hok
          rw [ih m1 m hok1 h]
          have hb : m1.byName n = m0.byName n := by unfold Mapper.byName; rw [h1, h2]
          rw [hb]
          rfl
  have := key ops (Mapper.empty V) m ⟨fun _ _ h => by simp [Mapper.empty] at h, fun _ _ _ h => by simp [Mapper.empty] at h⟩ h
  exact this

/-- **C43 violated.** Redefining a style after it was looked up leaves the freed object in the lookup cache: the
next lookup of the region returns a dangling pointer. -/
theorem C43_violated_dangling_style :
    ∃ m' m'' p, run (fun i => ⟨i, none⟩) (Mapper.empty Nat) [.set 1 10, .get 1, .set 1 20] = some m' ∧
      step (fun i => ⟨i, none⟩) m' (.get 1) = some (m'', some p) ∧ m''.heap p = none ∧ m''.byName 1 = some 20 :=
  ⟨_, _, 0, rfl, rfl, rfl, rfl⟩

/-- the operations are definitions only -/
def Defs : List (Op V) → Prop
  | [] => True
  | .get _ :: _ => False
  | _ :: r => Defs r

theorem run_defs (R : Nat → Reg) (ops : List (Op V)) (h : Defs ops) : ∀ m0 : Mapper V, HeapOk m0 →
    ∃ m, run R m0 ops = some m ∧ m.cache = m0.cache ∧ HeapOk m := by
  induction ops with
  | nil => intro m0 hok; exact ⟨m0, rfl, rfl, hok⟩
  | cons o t ih =>
    intro m0 hok
    cases o with
    | get => exact False.elim h
    | set n v =>
      obtain ⟨m, h1, h2, h3⟩ := ih h (m0.define n v) (define_ok hok n v)
      exact ⟨m, h1, h2, h3⟩
    | assign n v =>
      obtain ⟨m, h1, h2, h3⟩ := ih h (m0.define n v) (define_ok hok n v)
      exact ⟨m, h1, h2, h3⟩

/-- **C43 (part).** When all definitions and loads happen before the first lookup (and that lookup is not for region 0), every
lookup afterwards returns a live object holding the expected value — the last definition of the region's own name, or of its
nearest ancestor that has one. Missing: definitions made after a lookup (see `C43_violated_dangling_style`). -/
theorem C43_styles_defined_before_use_partial (R : Nat → Reg) (hR : ParentsFirst R) (defs gets : List (Op V)) (hd : Defs defs)
    (hg : Gets gets) (id : Nat) (hf : FirstOk (gets ++ [.get id])) :
    ∃ m m' r, run R (Mapper.empty V) (defs ++ gets) = some m ∧ step R m (.get id) = some (m', r) ∧
      ∀ v, (r.bind m'.heap = some v) ↔ Expected R defs id v := by
  have hempty : HeapOk (Mapper.empty V) :=
    ⟨fun _ _ h => by simp [Mapper.empty] at h, fun _ _ _ h => by simp [Mapper.empty] at h⟩
  obtain ⟨m0, h1, h2, h3⟩ := run_defs R defs hd (Mapper.empty V) hempty
  obtain ⟨m, m', r, g1, g2, g3⟩ := C15_lookup_finds_nearest_style_partial R hR m0 h2 gets hg id hf
  have happ : ∀ (a b : List (Op V)) (x : Mapper V), run R x (a ++ b) = (run R x a).bind fun y => run R y b := by
    intro a
    induction a with
    | nil => intro b x; rfl
    | cons o t ih =>
      intro b x
      simp only [List.cons_append, run]
      cases step R x o with
      | none => rfl
      | some y => exact ih b y.1
  -- lookups do not touch definitions or objects
  have hframe : ∀ (ops : List (Op V)) (x y : Mapper V), Gets ops → run R x ops = some y →
      y.defs = x.defs ∧ y.heap = x.heap := by
    intro ops
    induction ops with
    | nil => intro x y _ h; cases h; exact ⟨rfl, rfl⟩
    | cons o t ih =>
      intro x y hg h
      cases o with
      | set => exact False.elim hg
      | assign => exact False.elim hg
      | get j =>
        simp only [run] at h
        cases hs : step R x (.get j) with
        | none => rw [hs] at h; cases h
        | some z =>
          rw [hs] at h
          obtain ⟨e1, e2, _⟩ := byName_frame hs
          obtain ⟨e3, e4⟩ := ih z.1 y hg h
          exact ⟨e3.trans e1, e4.trans e2⟩
  obtain ⟨f1, f2⟩ := hframe gets m0 m hg g1
  obtain ⟨f3, f4, _⟩ := byName_frame g2
  refine ⟨m, m', r, by rw [happ, h1]; exact g1, g2, ?_⟩
  have hby : ∀ n, m0.byName n = lastDef n defs none := fun n => C38_last_definition_wins R defs m0 h1 n
  have hnone : ∀ n, m0.defs n = none ↔ lastDef n defs none = none := by
    intro n
    rw [← hby n]
    unfold Mapper.byName
    cases hx : m0.defs n with
    | none => simp
    | some p =>
      have := (h3.1 n p hx).2
      simp only [reduceCtorEq, Option.bind_some, false_iff]
      intro h; rw [h] at this; cases this
  have hheap : m'.heap = m0.heap := f4.trans f2
  rw [hheap]
  -- pointers and values agree along the chain
  have fwd : ∀ id d, Nearest R m0.defs id d → ∀ v, m0.heap d = some v → Expected R defs id v := by
    intro id d hn
    clear hf g2 g3
    induction hn with
    | own h =>
      intro v hv
      refine .own ?_
      rw [← hby]
      unfold Mapper.byName
      rw [h]; exact hv
    | inherited h1 h2 _ ih => intro v hv; exact .inherited ((hnone _).1 h1) h2 (ih v hv)
  have bwd : ∀ id v, Expected R defs id v → ∃ d, Nearest R m0.defs id d ∧ m0.heap d = some v := by
    intro id v hn
    clear hf g2 g3
    induction hn with
    | own h =>
      rw [← hby] at h
      unfold Mapper.byName at h
      cases hx : m0.defs (R _).name with
      | none => rw [hx] at h; cases h
      | some p => rw [hx] at h; exact ⟨p, .own hx, h⟩
    | inherited h1 h2 _ ih =>
      obtain ⟨d, hd, hv⟩ := ih
      exact ⟨d, .inherited ((hnone _).2 h1) h2 hd, hv⟩
  intro v
  constructor
  · intro h
    cases hr : r with
    | none => rw [hr] at h; cases h
    | some d =>
      rw [hr] at h
      exact fwd id d ((g3 d).1 hr) v h
  · intro h
    obtain ⟨d, h4, h5⟩ := bwd id v h
    rw [(g3 d).2 h4]
    exact h5

/-! ## C16 -/

/-- **C16.** Resolving a style against its background keeps every colour the region sets itself, takes the unset ones from
the background, and combines the font bits. -/
theorem C16_styled_fills_only_unset (r p : Styled) :
    (r.assignParent p).foreOpt = r.foreOpt.or p.foreOpt ∧ (r.assignParent p).backOpt = r.backOpt.or p.backOpt ∧
    (r.assignParent p).style = r.style ||| p.style := by
  obtain ⟨a, b, c, d, e⟩ := r
  obtain ⟨a', b', c', d', e'⟩ := p
  cases a <;> cases b <;> cases a' <;> cases b' <;> simp [Styled.assignParent, Styled.foreOpt, Styled.backOpt]

/-- **C16.** Resolution is idempotent and associative along a chain of backgrounds. -/
theorem C16_styled_laws (r p q : Styled) :
    (r.assignParent p).assignParent p = r.assignParent p ∧
    (r.assignParent p).assignParent q = r.assignParent (p.assignParent q) := by
  obtain ⟨a, b, c, d, e⟩ := r
  obtain ⟨a', b', c', d', e'⟩ := p
  obtain ⟨a'', b'', c'', d'', e''⟩ := q
  constructor
  · cases a <;> cases b <;> cases a' <;> cases b' <;> simp [Styled.assignParent, BitVec.or_assoc]
  · cases a <;> cases b <;> cases a' <;> cases b' <;> simp [Styled.assignParent, BitVec.or_assoc]

/-- **C42 (part).** The same for markup, pair by pair: a complete pair of the region is kept, otherwise the background's pair is used. -/
theorem C42_markup_pairs_filled_when_incomplete_partial (r p : Text) :
    (r.assignParent p).textOpt = r.textOpt.or p.textOpt ∧ (r.assignParent p).backOpt = r.backOpt.or p.backOpt := by
  obtain ⟨a, b, c, d⟩ := r
  cases a <;> cases b <;> cases c <;> cases d <;> simp [Text.assignParent, Text.textOpt, Text.backOpt]

/-- **C42.** Resolution of markup is idempotent and associative. -/
theorem C42_markup_laws (r p q : Text) :
    (r.assignParent p).assignParent p = r.assignParent p ∧
    (r.assignParent p).assignParent q = r.assignParent (p.assignParent q) := by
  obtain ⟨a, b, c, d⟩ := r
  obtain ⟨a', b', c', d'⟩ := p
  constructor
  · cases a <;> cases b <;> cases c <;> cases d <;> cases a' <;> cases b' <;> cases c' <;> cases d' <;>
      simp [Text.assignParent]
  · cases a <;> cases b <;> cases c <;> cases d <;> cases a' <;> cases b' <;> cases c' <;> cases d' <;>
      simp [Text.assignParent]

/-- **C42 violated.** A region that sets only an opening markup loses it: the pair is replaced as a whole. -/
theorem C42_violated_half_markup :
    (Text.assignParent ⟨some [60], none, none, none⟩ ⟨none, none, none, none⟩).startText = none := rfl

/-! ## Non-triviality -/

/-- regions 0 ← 1 ← 2, 3 alone; styles for names 10 (region 0) and 12 (region 2) -/
def exR : Nat → Reg := fun i => if i = 0 then ⟨10, none⟩ else if i = 1 then ⟨11, some 0⟩ else if i = 2 then ⟨12, some 1⟩ else ⟨13, none⟩
def exM : Mapper Nat := ((Mapper.empty Nat).define 10 100).define 12 120

example : ParentsFirst exR := by
  intro id p h
  simp only [exR] at h
  split at h
  · cases h
  · split at h
    · cases h; omega
    · split at h
      · cases h; omega
      · cases h
example : Nearest exR exM.defs 1 0 := .inherited rfl rfl (.own rfl)
example : Gets (V := Nat) [.get 2, .get 1, .get 3] ∧ FirstOk (V := Nat) ([.get 2, .get 1, .get 3] ++ [.get 0]) :=
  ⟨trivial, by simp [FirstOk]⟩
example : ((run exR exM [.get 2, .get 1, .get 3]).bind fun m => step exR m (.get 0)).map (fun x => x.2) = some (some 0) := by
  decide +kernel
example : (run exR (Mapper.empty Nat) [.set 1 5, .get 3, .assign 2 6, .set 1 7]).isSome = true := by decide +kernel

end Verif.Styles
