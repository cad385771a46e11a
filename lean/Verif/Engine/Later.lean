import Verif.Engine.Loaded
import Verif.TextParser.Grow
/-!
# Loading further types changes nothing

A document is coloured with a loaded type, further types are loaded, the document is coloured on: with the same result as without the loading.
-/
namespace Verif.Engine
open Verif.RegExp (Chars Expr)
open Verif.TextParser (Env Node Block Job Result PState fresh Query Match)
open Verif.Hrc (World Lib Name SNode Link VEnt KwNode Sch Act acts)

/-- the links of the loaded schemes lead to loaded schemes -/
def Linked (L : Lib) : Prop := ∀ s ∈ L.schemes, ∀ nd ∈ s.nodes, ∀ l ∈ nd.links, ∀ q, l.scheme = some q → ∃ s ∈ L.schemes, s.name = q

theorem schemeNo_lt {L : Lib} {q : Name} {k : Nat} (h : schemeNo L q = some k) : k < L.schemes.length := by
  unfold schemeNo at h
  rw [List.findIdx?_eq_some_iff_getElem] at h
  exact h.1

section
variable {L1 L2 : Lib} {more : List Sch} (hl : Linked L1) (h : L2.schemes = L1.schemes ++ more)

include h in
theorem at_same {i : Nat} (hi : i < L1.schemes.length) : L2.schemes[i]? = L1.schemes[i]? := by
  rw [h, List.getElem?_append_left hi]

include h in
theorem nodeAt_same {i : Nat} (hi : i < L1.schemes.length) (j : Nat) : nodeAt L2 i j = nodeAt L1 i j := by
  unfold nodeAt; rw [at_same h hi]

include h in
theorem schemeNo_same {q : Name} (hq : ∃ s ∈ L1.schemes, s.name = q) : schemeNo L2 q = schemeNo L1 q := by
  unfold schemeNo
  rw [h, List.findIdx?_append]
  obtain ⟨s, hs, hn⟩ := hq
  cases hx : L1.schemes.findIdx? (·.name = q) with
  | some k => rfl
  | none =>
    rw [List.findIdx?_eq_none_iff] at hx
    have := hx s hs
    simp [hn] at this

include h in
theorem exprAt_same {id : Nat} (hi : (Nat.unpair (id / 2)).1 < L1.schemes.length) : exprAt L2 id = exprAt L1 id := by
  unfold exprAt; rw [nodeAt_same h hi]

include h in
theorem kwAt_same {id : Nat} (hi : (Nat.unpair id).1 < L1.schemes.length) : kwAt L2 id = kwAt L1 id := by
  unfold kwAt; rw [nodeAt_same h hi]

include h in
theorem link_same {l : Link} (hq : ∀ q, l.scheme = some q → ∃ s ∈ L1.schemes, s.name = q) : l.scheme.bind (schemeNo L2) = l.scheme.bind (schemeNo L1) := by
  cases hs : l.scheme with
  | none => rfl
  | some q => exact schemeNo_same h (hq q hs)

include hl h in
theorem nodeOf_same {s : Sch} (hs : s ∈ L1.schemes) {nd : SNode} (hn : nd ∈ s.nodes) (i j : Nat) : nodeOf L2 i j nd = nodeOf L1 i j nd := by
  have hk := hl s hs nd hn
  cases nd with
  | inherit l virt =>
    show Node.inherit (l.scheme.bind (schemeNo L2)) (virt.map (entryOf L2)) = Node.inherit (l.scheme.bind (schemeNo L1)) (virt.map (entryOf L1))
    rw [link_same h (hk l (by simp [SNode.links]))]
    congr 1
    apply List.map_congr_left
    intro v hv
    unfold entryOf
    have h1 : v.virt ∈ (SNode.inherit l virt).links := by
      simp only [SNode.links, List.mem_cons, List.mem_flatMap]; exact .inr ⟨v, hv, by simp [VEnt.links]⟩
    have h2 : v.subst ∈ (SNode.inherit l virt).links := by
      simp only [SNode.links, List.mem_cons, List.mem_flatMap]; exact .inr ⟨v, hv, by simp [VEnt.links]⟩
    rw [link_same h (hk _ h1), link_same h (hk _ h2)]
  | regexp n => rfl
  | block b =>
    simp only [nodeOf]
    rw [link_same h (hk b.link (by simp [SNode.links]))]
  | keywords n => rfl

include hl h in
theorem gramOf_same {i : Nat} (hi : i < L1.schemes.length) : gramOf L2 i = gramOf L1 i := by
  unfold gramOf
  rw [at_same h hi]
  cases hs : L1.schemes[i]? with
  | none => rfl
  | some s =>
    dsimp only
    refine List.ext_getElem (by simp) fun j h1 h2 => ?_
    rw [List.getElem_mapIdx, List.getElem_mapIdx]
    exact nodeOf_same hl h (List.mem_of_getElem? hs) (List.getElem_mem _) i j

include hl h in
theorem same_on {chars : Chars} {env : Env} (he : WorksWith chars L1 env) :
    TextParser.SameOn L1.schemes.length (env.gram (gramOf L2) (kwOf (langOf chars L2))) env.nodes env.kw := by
  have hn : ∀ s, s < L1.schemes.length → (env.gram (gramOf L2) (kwOf (langOf chars L2))).nodes s = gramOf L1 s := fun s hs => gramOf_same hl h hs
  refine ⟨fun s hs => by rw [hn s hs, he.nodes], fun s hs id hm t => ?_, fun s hs k virt hm => ?_, fun s hs b hm k hk => ?_⟩
  · rw [hn s hs] at hm
    obtain ⟨x, j, nd, a1, a2, a3, a4⟩ := gram_mem hm
    cases nd with
    | keywords m =>
      simp only [nodeOf, Node.keywords.injEq] at a4
      have hi : (Nat.unpair id).1 < L1.schemes.length := by rw [a4, Nat.unpair_pair]; exact hs
      show env.kw t id = kwOf (langOf chars L2) t id
      rw [he.kw]
      funext a b c
      unfold kwOf langOf
      dsimp only
      rw [kwAt_same h hi]
    | inherit _ _ => cases a4
    | regexp _ => cases a4
    | block _ => cases a4
  · rw [hn s hs] at hm
    obtain ⟨x, j, nd, a1, a2, a3, a4⟩ := gram_mem hm
    cases nd with
    | inherit l v =>
      simp only [nodeOf, Node.inherit.injEq] at a4
      obtain ⟨h5, rfl⟩ := a4
      constructor
      · cases hq : l.scheme with
        | none => rw [hq] at h5; cases h5
        | some q => rw [hq] at h5; exact schemeNo_lt h5.symm
      · intro x y hxy
        obtain ⟨w, hw, e⟩ := List.mem_map.1 hxy
        unfold entryOf at e
        split at e
        · simp only [Prod.mk.injEq] at e
          cases hq : w.subst.scheme with
          | none => rw [hq] at e; cases e.2
          | some q => rw [hq] at e; exact schemeNo_lt e.2
        · simp at e
    | keywords _ => cases a4
    | regexp _ => cases a4
    | block _ => cases a4
  · rw [hn s hs] at hm
    obtain ⟨x, j, nd, a1, a2, a3, a4⟩ := gram_mem hm
    cases nd with
    | block m =>
      cases a4
      simp only at hk
      cases hq : m.link.scheme with
      | none => rw [hq] at hk; cases hk
      | some q => rw [hq] at hk; exact schemeNo_lt hk
    | keywords _ => cases a4
    | regexp _ => cases a4
    | inherit _ _ => cases a4

theorem gram_lt {L : Lib} {i : Nat} {n : Node} (h : n ∈ gramOf L i) : i < L.schemes.length := by
  obtain ⟨s, _, _, h1, _⟩ := gram_mem h
  exact (List.getElem?_eq_some_iff.1 h1).1

theorem re_lt {L : Lib} {i : Nat} {re : Nat} {low : Bool} {regs : List (Option Nat)} (h : Node.re re low regs ∈ gramOf L i) :
    (Nat.unpair (re / 2)).1 < L.schemes.length := by
  have hi := gram_lt h
  obtain ⟨s, j, nd, h1, h2, h3, h4⟩ := gram_mem h
  cases nd with
  | regexp n =>
    cases h4
    have : startId i j / 2 = Nat.pair i j := by unfold startId; omega
    rw [this, Nat.unpair_pair]; exact hi
  | keywords _ => cases h4
  | block _ => cases h4
  | inherit _ _ => cases h4

theorem block_lt {L : Lib} {i : Nat} {b : Block} (h : Node.block b ∈ gramOf L i) :
    (Nat.unpair (b.start / 2)).1 < L.schemes.length ∧ (Nat.unpair (b.stop / 2)).1 < L.schemes.length := by
  have hi := gram_lt h
  obtain ⟨s, j, nd, h1, h2, h3, h4⟩ := gram_mem h
  cases nd with
  | block n =>
    cases h4
    have e1 : startId i j / 2 = Nat.pair i j := by unfold startId; omega
    have e2 : stopId i j / 2 = Nat.pair i j := by unfold stopId; omega
    dsimp only
    rw [e1, e2, Nat.unpair_pair]; exact ⟨hi, hi⟩
  | keywords _ => cases h4
  | regexp _ => cases h4
  | inherit _ _ => cases h4

include h in
theorem says_same (chars : Chars) {q : Query} (hq : (Nat.unpair (q.re / 2)).1 < L1.schemes.length) {a : Bool × Match} (hs : Says (langOf chars L2) q a) :
    Says (langOf chars L1) q a := by
  have e1 : (langOf chars L2).prog q.re = (langOf chars L1).prog q.re := exprAt_same h hq
  have e2 : (langOf chars L2).prog ((langOf chars L2).opener q.re) = (langOf chars L1).prog ((langOf chars L1).opener q.re) := by
    refine exprAt_same h ?_
    have : 2 * (q.re / 2) / 2 = q.re / 2 := by omega
    show (Nat.unpair (2 * (q.re / 2) / 2)).1 < _
    rw [this]; exact hq
  obtain ⟨hist, o, fuel, bt, mt, out, h1, h2, h3, h4, h5⟩ := hs
  rw [e1] at h1 h3 h5
  refine ⟨hist, o, fuel, bt, mt, out, h1, ?_, h3, h4, h5⟩
  unfold TraceOf at h2 ⊢
  rw [e2] at h2
  exact h2

include hl h in
theorem engine_same {chars : Chars} {env : Env} (he : WorksWith chars L1 env) {rx : Nat → Query → Bool × Match}
    (hx : Engine (langOf chars L2) ((env.gram (gramOf L2) (kwOf (langOf chars L2))).with rx)) : Engine (langOf chars L1) (env.with rx) := by
  have sub : ∀ s (n : Node), n ∈ env.nodes s → n ∈ gramOf L2 s := by
    intro s n hn
    rw [he.nodes] at hn
    rw [gramOf_same hl h (gram_lt hn)]; exact hn
  intro t q hq
  obtain ⟨hw, hq⟩ := hq
  have hre : (Nat.unpair (q.re / 2)).1 < L1.schemes.length := by
    rcases hq with ⟨_, s, ⟨low, regs, hm⟩ | ⟨b, hm, e⟩⟩ | ⟨_, _, _, b, s, _, _, hm, e, _⟩
    · have hm : _ ∈ env.nodes s := hm
      rw [he.nodes] at hm; exact re_lt hm
    · have hm : _ ∈ env.nodes s := hm
      rw [he.nodes] at hm; rw [← e]; exact (block_lt hm).1
    · have hm : _ ∈ env.nodes s := hm
      rw [he.nodes] at hm; rw [← e]; exact (block_lt hm).2
  refine says_same h chars hre (hx t q ⟨hw, ?_⟩)
  rcases hq with ⟨h0, s, ⟨low, regs, hm⟩ | ⟨b, hm, e⟩⟩ | ⟨a1, a2, a3, b, s, k, q', hm, e⟩
  · exact .inl ⟨h0, s, .inl ⟨low, regs, sub _ _ hm⟩⟩
  · exact .inl ⟨h0, s, .inr ⟨b, sub _ _ hm, e⟩⟩
  · exact .inr ⟨a1, a2, a3, b, s, k, q', sub _ _ hm, e⟩

include hl h in
theorem runs_later {chars : Chars} {env : Env} (he : WorksWith chars L1 env) {p : PState} {js : List Job} {rs : List Result}
    (hr : Runs (langOf chars L2) (env.gram (gramOf L2) (kwOf (langOf chars L2))) p js rs) : TextParser.KnowsOnly L1.schemes.length p →
    Runs (langOf chars L1) env p js rs ∧ TextParser.KnowsOnly L1.schemes.length (lastOf p rs) := by
  induction hr with
  | nil => intro hk; exact ⟨.nil, hk⟩
  | @cons p j js rx r rs hx hp _ ih =>
    intro hk
    have so := same_on hl h he
    obtain ⟨a, b⟩ := TextParser.parses_grow (n := L1.schemes.length)
      (env := ((env.gram (gramOf L2) (kwOf (langOf chars L2))).with rx).text j.text) (nodes := env.nodes) (kw := env.kw)
      ⟨so.nodes, so.kw, so.inherits, so.blocks⟩ hk hp
    obtain ⟨a2, b2⟩ := ih b
    exact ⟨.cons (rx := rx) (engine_same hl h he hx) a a2, b2⟩
end

/-- what happens: something is loaded or looked up, or the parser is called -/
inductive Doing where
  | act (a : Act)
  | job (j : Job)

/-- the calls of the parser among them -/
def jobs : List Doing → List Job
  | [] => []
  | .act _ :: ds => jobs ds
  | .job j :: ds => j :: jobs ds

/-- loads, lookups and calls of one parser in any order; each call works with what is loaded then -/
inductive Mixed (W : World) (fuel : Nat) (chars : Chars) (env : Env) : Lib → PState → List Doing → List Result → Prop
  | nil {L : Lib} {p : PState} : Mixed W fuel chars env L p [] []
  | act {L L' : Lib} {p : PState} {a : Act} {ds : List Doing} {rs : List Result} : Hrc.act W fuel L a = some L' → Mixed W fuel chars env L' p ds rs →
      Mixed W fuel chars env L p (.act a :: ds) rs
  | job {L : Lib} {p : PState} {j : Job} {ds : List Doing} {rx : Nat → Query → Bool × Match} {r : Result} {rs : List Result} :
      Engine (langOf chars L) ((env.gram (gramOf L) (kwOf (langOf chars L))).with rx) →
      TextParser.Parses (((env.gram (gramOf L) (kwOf (langOf chars L))).with rx).text j.text) p j.from' j.num j.mode r →
      Mixed W fuel chars env L r.after ds rs → Mixed W fuel chars env L p (.job j :: ds) (r :: rs)

/-- **C64**: further loads change nothing. A parser works with a scheme of a loaded library; between its calls, anything may be loaded or looked up: its
results are those it gives without that. -/
theorem C64_later_loads_change_nothing {W : World} {fuel : Nat} (protos : List Name) (hp : ∀ t ∈ protos, 58 ∉ t) (hf : protos.length < fuel) (as : List Act)
    (L : Lib) (h : acts W fuel (Lib.init protos) as = some L) (chars : Chars) (env : Env) (hm : 0 ≤ env.maxBlock) (base : Nat) (hb : base < L.schemes.length)
    (ds : List Doing) (rs : List Result) (hr : Mixed W fuel chars env L (fresh base) ds rs) :
    Runs (langOf chars L) (env.gram (gramOf L) (kwOf (langOf chars L))) (fresh base) (jobs ds) rs := by
  obtain ⟨_, hall⟩ := Hrc.C61_loaded_schemes_are_fine protos hp hf as L h
  have hl : Linked L := fun s hs nd hn l hl q hq => ((hall s hs).2.2 nd hn).1.1 l hl q hq
  have he : WorksWith chars L (env.gram (gramOf L) (kwOf (langOf chars L))) := ⟨rfl, rfl, hm⟩
  have key : ∀ {L' : Lib} {p : PState} {ds : List Doing} {rs : List Result}, Mixed W fuel chars env L' p ds rs →
      (∃ bs, acts W fuel (Lib.init protos) (as ++ bs) = some L') → TextParser.KnowsOnly L.schemes.length p →
      Runs (langOf chars L) (env.gram (gramOf L) (kwOf (langOf chars L))) p (jobs ds) rs := by
    intro L' p ds rs hx
    induction hx with
    | nil => intro _ _; exact .nil
    | @act L1 L2 p a ds rs h1 _ ih =>
      rintro ⟨bs, h2⟩ hk
      refine ih ⟨bs ++ [a], ?_⟩ hk
      rw [← List.append_assoc, Hrc.acts_append, h2]
      simp [acts, h1]
    | @job L1 p j ds rx r rs h1 h2 _ ih =>
      rintro ⟨bs, h3⟩ hk
      obtain ⟨more, hmore⟩ := Hrc.C61_loaded_schemes_are_final protos hp hf as bs L L1 h h3
      have so := same_on hl hmore he
      obtain ⟨a, b⟩ := TextParser.parses_grow (n := L.schemes.length)
        (env := ((env.gram (gramOf L1) (kwOf (langOf chars L1))).with rx).text j.text) (nodes := gramOf L) (kw := kwOf (langOf chars L))
        ⟨so.nodes, so.kw, so.inherits, so.blocks⟩ hk h2
      exact .cons (rx := rx) (engine_same hl hmore he h1) a (ih ⟨bs, h3⟩ b)
  exact key hr ⟨[], by simpa using h⟩ ⟨hb, fun i hi => by obtain ⟨t, ht, _⟩ := hi; cases ht⟩

/-- **C64**: so, when expressions do not depend on earlier uses, there is only one result: the same with and without the loads. -/
theorem C64_same_colours_with_and_without_loads_partial {W : World} {fuel : Nat} (protos : List Name) (hp : ∀ t ∈ protos, 58 ∉ t) (hf : protos.length < fuel)
    (as : List Act) (L : Lib) (h : acts W fuel (Lib.init protos) as = some L) (hs : SteadyLib L) (chars : Chars) (env : Env) (hm : 0 ≤ env.maxBlock)
    (base : Nat) (hb : base < L.schemes.length) (ds ds' : List Doing) (hj : jobs ds' = jobs ds) (rs rs' : List Result)
    (h1 : Mixed W fuel chars env L (fresh base) ds rs) (h2 : Mixed W fuel chars env L (fresh base) ds' rs') : rs' = rs := by
  have a := C64_later_loads_change_nothing protos hp hf as L h chars env hm base hb ds rs h1
  have b := C64_later_loads_change_nothing protos hp hf as L h chars env hm base hb ds' rs' h2
  rw [hj] at b
  exact C63_colours_come_from_sources_and_text_partial protos hp hf as L h hs chars (env.gram (gramOf L) (kwOf (langOf chars L))) ⟨rfl, rfl, hm⟩ base _ rs rs' a b

/-- the loads and lookups among them -/
def loads : List Doing → List Act
  | [] => []
  | .act a :: ds => a :: loads ds
  | .job _ :: ds => loads ds

theorem knows_mono {m n : Nat} (hmn : m ≤ n) {p : PState} (h : TextParser.KnowsOnly m p) : TextParser.KnowsOnly n p :=
  ⟨by have := h.1; omega, fun i hi => TextParser.infoIn_mono hmn (h.2 i hi)⟩

/-- **C64**: the other way round: what the calls give with everything loaded from the start, they give with the loads in between. -/
theorem C64_loading_first_or_in_between {W : World} {fuel : Nat} (protos : List Name) (hp : ∀ t ∈ protos, 58 ∉ t) (hf : protos.length < fuel) (as : List Act)
    (L L2 : Lib) (h : acts W fuel (Lib.init protos) as = some L) (chars : Chars) (env : Env) (hm : 0 ≤ env.maxBlock) (base : Nat)
    (hb : base < L.schemes.length) (ds : List Doing) (h2 : acts W fuel L (loads ds) = some L2) (rs : List Result)
    (hr : Runs (langOf chars L2) (env.gram (gramOf L2) (kwOf (langOf chars L2))) (fresh base) (jobs ds) rs) :
    Mixed W fuel chars env L (fresh base) ds rs := by
  have key : ∀ (ds : List Doing) (as : List Act) (L : Lib) (p : PState) (rs : List Result), acts W fuel (Lib.init protos) as = some L →
      acts W fuel L (loads ds) = some L2 → TextParser.KnowsOnly L.schemes.length p →
      Runs (langOf chars L2) (env.gram (gramOf L2) (kwOf (langOf chars L2))) p (jobs ds) rs → Mixed W fuel chars env L p ds rs := by
    intro ds
    induction ds with
    | nil => intro as L p rs _ _ _ hr; cases hr; exact .nil
    | cons d ds ih =>
      intro as L p rs h h2 hk hr
      cases d with
      | act a =>
        simp only [loads, acts] at h2
        cases ha : Hrc.act W fuel L a with
        | none => rw [ha] at h2; cases h2
        | some L1 =>
          rw [ha] at h2
          have h3 : acts W fuel (Lib.init protos) (as ++ [a]) = some L1 := by
            rw [Hrc.acts_append, h]; simp [acts, ha]
          obtain ⟨more, hmore⟩ := Hrc.C61_loaded_schemes_are_final protos hp hf as [a] L L1 h h3
          exact .act ha (ih _ L1 p rs h3 (by simpa using h2) (knows_mono (by rw [hmore]; simp) hk) hr)
      | job j =>
        simp only [jobs] at hr
        cases hr with
        | @cons _ _ _ rx r rs hx hp2 hr =>
          simp only [loads] at h2
          obtain ⟨_, hall⟩ := Hrc.C61_loaded_schemes_are_fine protos hp hf as L h
          have hl : Linked L := fun s hs nd hn l hl q hq => ((hall s hs).2.2 nd hn).1.1 l hl q hq
          have he : WorksWith chars L (env.gram (gramOf L) (kwOf (langOf chars L))) := ⟨rfl, rfl, hm⟩
          obtain ⟨more, hmore⟩ := Hrc.C61_loaded_schemes_are_final protos hp hf as (loads ds) L L2 h (by rw [Hrc.acts_append, h]; simpa using h2)
          have so := same_on hl hmore he
          obtain ⟨a, b⟩ := TextParser.parses_grow (n := L.schemes.length)
            (env := ((env.gram (gramOf L2) (kwOf (langOf chars L2))).with rx).text j.text) (nodes := gramOf L) (kw := kwOf (langOf chars L))
            ⟨so.nodes, so.kw, so.inherits, so.blocks⟩ hk hp2
          exact .job (rx := rx) (engine_same hl hmore he hx) a (ih as L r.after rs h h2 b hr)
  exact key ds as L _ rs h h2 ⟨hb, fun i hi => by obtain ⟨t, ht, _⟩ := hi; cases ht⟩ hr

/-- **C64**: and they end, whatever is loaded in between, if the library at the end has no endless repetitions or inheritance -/
theorem C64_calls_between_loads_end_partial {W : World} {fuel : Nat} (protos : List Name) (hp : ∀ t ∈ protos, 58 ∉ t) (hf : protos.length < fuel) (as : List Act)
    (L L2 : Lib) (h : acts W fuel (Lib.init protos) as = some L) (chars : Chars) (env : Env) (hm : 0 ≤ env.maxBlock) (base : Nat)
    (hb : base < L.schemes.length) (ds : List Doing) (h2 : acts W fuel L (loads ds) = some L2) (hs : SteadyLib L2) (he : EndingLib L2) (rank : Name → Nat)
    (hr : RankedLib L2 rank) (hj : ∀ j ∈ jobs ds, j.Ok) : ∃ rs, Mixed W fuel chars env L (fresh base) ds rs := by
  obtain ⟨rs, h3⟩ := C63_parsing_a_loaded_type_ends_partial protos hp hf (as ++ loads ds) L2 (by rw [Hrc.acts_append, h]; simpa using h2) hs he chars
    (env.gram (gramOf L2) (kwOf (langOf chars L2))) ⟨rfl, rfl, hm⟩ rank hr base (jobs ds) hj
  exact ⟨rs, C64_loading_first_or_in_between protos hp hf as L L2 h chars env hm base hb ds h2 rs h3⟩

end Verif.Engine
