import Verif.Engine.Same
import Verif.TextParser.EndsDemo
import Verif.Hrc.Schemes
import Mathlib.Data.Nat.Pairing
/-!
# The text parser with a loaded library

Puts the loader (Verif.Hrc) before the parser: the schemes, expressions, keyword lists and links the parser works with are those of a library
reached by any sequence of loads and lookups. Schemes are numbered by their place in the table (in the code they are pointers, SchemeNode.h,
VirtualEntry.h; two schemes are the same iff the pointers are).
-/
namespace Verif.Engine
open Verif.RegExp (Chars Expr)
open Verif.TextParser (Env Node Block)
open Verif.Hrc (World Lib Name SNode Link VEnt KwNode Sch Act acts)
open Verif.VTList (VEntries)

/-! ## The loaded grammar as the parser sees it -/

/-- the number of a scheme -/
def schemeNo (L : Lib) (q : Name) : Option Nat := L.schemes.findIdx? (·.name = q)

/-- the node `j` of the scheme `i` -/
def nodeAt (L : Lib) (i j : Nat) : Option SNode := (L.schemes[i]?).bind fun s => s.nodes[j]?

/-- the numbers of the expressions of a node: start (even), end (odd) -/
def startId (i j : Nat) : Nat := 2 * Nat.pair i j
def stopId (i j : Nat) : Nat := 2 * Nat.pair i j + 1

def noExpr : Expr := ⟨[], 1, 0, ⟨false, false, false⟩, false⟩

/-- the expression of that number -/
def exprAt (L : Lib) (id : Nat) : Expr :=
  match nodeAt L (Nat.unpair (id / 2)).1 (Nat.unpair (id / 2)).2 with
  | some (.regexp n) => n.start
  | some (.block b) => if id % 2 = 0 then b.start else b.stop
  | some (.inherit _ _) => noExpr
  | some (.keywords _) => noExpr
  | none => noExpr

/-- the keyword list of that number -/
def kwAt (L : Lib) (id : Nat) : Option KwNode :=
  match nodeAt L (Nat.unpair id).1 (Nat.unpair id).2 with
  | some (.keywords n) => some n
  | some (.regexp _) => none
  | some (.block _) => none
  | some (.inherit _ _) => none
  | none => none

/-- `pushvirt` compares with `virtScheme`, which is null if it was not found: such an entry never applies (TextParserHelpers.cpp 113-118) -/
def entryOf (L : Lib) (v : VEnt) : Nat × Option Nat :=
  match v.virt.scheme.bind (schemeNo L) with
  | some k => (k, v.subst.scheme.bind (schemeNo L))
  | none => (0, none)

/-- a node as the parser reads it (TextParserImpl.cpp 151-185, 273-326): the regions of the groups in the order of the loops -/
def nodeOf (L : Lib) (i j : Nat) : SNode → Node
  | .inherit l virt => .inherit (l.scheme.bind (schemeNo L)) (virt.map (entryOf L))
  | .keywords _ => .keywords (Nat.pair i j)
  | .regexp n => .re (startId i j) n.low (n.regions.take n.start.cMatch ++ n.regionsn.take n.start.cnMatch)
  | .block b => .block
    { scheme := b.link.scheme.bind (schemeNo L), start := startId i j, stop := stopId i j, low := b.low, lowContent := b.lowContent,
      inner := b.inner, region := b.region, regs := b.regions.take b.start.cMatch ++ b.regionsn.take b.start.cnMatch,
      rege := b.regione.take b.stop.cMatch ++ b.regionen.take b.stop.cnMatch }

/-- the nodes of the scheme `i` -/
def gramOf (L : Lib) (i : Nat) : List Node :=
  match L.schemes[i]? with
  | some s => s.nodes.mapIdx (nodeOf L i)
  | none => []

/-- expressions and keyword lists of a loaded library; keywords are compared as they are or in lower case (TextParserImpl.cpp 217-224) -/
def langOf (chars : Chars) (L : Lib) : Lang where
  chars := chars
  prog := exprAt L
  opener id := 2 * (id / 2)
  kenv id := match kwAt L id with
    | some n => ⟨if n.matchCase then fun c => c else chars.lower, chars.isLetterOrDigit, n.worddiv⟩
    | none => ⟨fun c => c, chars.isLetterOrDigit, none⟩
  klist id := match kwAt L id with
    | some n => n.list
    | none => Keywords.build true (fun c => c) (fun c => c) (fun c => c) []

/-! ## What has to be looked at in the sources -/

mutual
/-- references by number to the groups of the start expression are to groups below `m`; `\Y{name}` reads a numbered group, too
(cregexp.cpp:1050) -/
def numbersIn (m : Nat) : List RegExp.Node → Bool
  | [] => true
  | a :: r => numbersInN m a && numbersIn m r
def numbersInN (m : Nat) : RegExp.Node → Bool
  | .bkTrace k | .bkTraceN k | .bkTraceNName k => decide (k < m)
  | .brackets _ b | .named _ b | .ahead b | .nahead b | .behind _ b | .nbehind _ b | .or b | .rangeN _ b | .rangeNM _ _ b | .ngRangeN _ b
  | .ngRangeNM _ _ b => numbersIn m b
  | .bkTraceName _ | .empty | .msym _ | .symb _ | .word _ | .enum _ | .nenum _ | .bkBrack _ | .bkBrackName _ => true
end

/-- marks `\m`, `\M` passed on every way or absent, none in look-behinds -/
def Steady (e : Expr) : Prop := RegExp.tidy e = true ∧ RegExp.fwd e.body = true

/-- what the loader does not check: marks passed on every way or absent, no `\m` in the start of a block, no reference of an end to a numbered
group that the start has not -/
def SteadyNode : SNode → Prop
  | .regexp n => Steady n.start
  | .block b => Steady b.start ∧ Steady b.stop ∧ RegExp.lacks .start b.start.body = true ∧ numbersIn b.start.cMatch b.stop.body = true
  | .inherit _ _ => True
  | .keywords _ => True

def SteadyLib (L : Lib) : Prop := ∀ s ∈ L.schemes, ∀ nd ∈ s.nodes, SteadyNode nd

/-! ## Proof -/

theorem bracketNames_length {x : RegExp.Ctx} {t : Name} {e : Expr} (h : RegExp.setRE x t = some (.ok e)) :
    (Hrc.bracketNames x t).length = e.cnMatch := by
  unfold RegExp.setRE at h
  unfold Hrc.bracketNames
  cases t with
  | nil => cases h
  | cons c t =>
    dsimp only at h
    split at h
    · cases hl : RegExp.lastSlash _ with
      | none => rw [hl] at h; cases h
      | some v =>
        obtain ⟨b, fl⟩ := v
        rw [hl] at h
        dsimp only at h ⊢
        split at h
        · cases h
        · cases h
        · cases h
        · split at h
          · cases h
          · cases h
            simp_all
    · cases h

mutual
theorem traces_of {m n m' n' : Nat} : ∀ l : List RegExp.Node, numbersIn m l = true → RegExp.inTables m' n' n l = true → RegExp.tracesIn m n l = true
  | [], _, _ => rfl
  | a :: r, h1, h2 => by
    rw [numbersIn, Bool.and_eq_true] at h1
    rw [RegExp.inTables, Bool.and_eq_true] at h2
    rw [RegExp.tracesIn, Bool.and_eq_true]
    exact ⟨tracesN_of a h1.1 h2.1, traces_of r h1.2 h2.2⟩
theorem tracesN_of {m n m' n' : Nat} : ∀ a : RegExp.Node, numbersInN m a = true → RegExp.inTablesN m' n' n a = true → RegExp.tracesInN m n a = true
  | .bkTrace k, h1, _ | .bkTraceN k, h1, _ | .bkTraceNName k, h1, _ => by simpa [numbersInN, RegExp.tracesInN] using h1
  | .bkTraceName k, _, h2 => by simpa [RegExp.inTablesN, RegExp.tracesInN] using h2
  | .empty, _, _ | .msym _, _, _ | .symb _, _, _ | .word _, _, _ | .enum _, _, _ | .nenum _, _, _ | .bkBrack _, _, _ | .bkBrackName _, _, _ => by
    simp [RegExp.tracesInN]
  | .brackets i c, h1, h2 | .named i c, h1, h2 => by
    simp only [numbersInN] at h1
    simp only [RegExp.inTablesN, Bool.and_eq_true] at h2
    simp only [RegExp.tracesInN]
    exact traces_of c h1 h2.2
  | .behind k c, h1, h2 | .nbehind k c, h1, h2 => by
    simp only [numbersInN] at h1
    simp only [RegExp.inTablesN, Bool.and_eq_true] at h2
    simp only [RegExp.tracesInN]
    exact traces_of c h1 h2.2
  | .ahead c, h1, h2 | .nahead c, h1, h2 | .or c, h1, h2 | .rangeN _ c, h1, h2 | .rangeNM _ _ c, h1, h2 | .ngRangeN _ c, h1, h2 | .ngRangeNM _ _ c, h1, h2 => by
    simp only [numbersInN] at h1
    simp only [RegExp.inTablesN] at h2
    simp only [RegExp.tracesInN]
    exact traces_of c h1 h2
end

theorem exprAt_start (L : Lib) (i j : Nat) : exprAt L (startId i j) = match nodeAt L i j with
    | some (.regexp n) => n.start
    | some (.block b) => b.start
    | _ => noExpr := by
  unfold exprAt startId
  have h1 : 2 * Nat.pair i j / 2 = Nat.pair i j := by omega
  have h2 : 2 * Nat.pair i j % 2 = 0 := by omega
  rw [h1, h2, Nat.unpair_pair]
  dsimp only
  rcases nodeAt L i j with _ | (_ | _ | _ | _) <;> rfl

theorem exprAt_stop (L : Lib) (i j : Nat) (b : Hrc.BlockNode) (h : nodeAt L i j = some (.block b)) : exprAt L (stopId i j) = b.stop := by
  unfold exprAt stopId
  have h1 : (2 * Nat.pair i j + 1) / 2 = Nat.pair i j := by omega
  have h2 : (2 * Nat.pair i j + 1) % 2 = 1 := by omega
  rw [h1, h2, Nat.unpair_pair]
  dsimp only
  rw [h]
  rfl

/-- where a node of the grammar comes from -/
theorem gram_mem {L : Lib} {i : Nat} {n : Node} (h : n ∈ gramOf L i) :
    ∃ s j nd, L.schemes[i]? = some s ∧ nodeAt L i j = some nd ∧ nd ∈ s.nodes ∧ n = nodeOf L i j nd := by
  unfold gramOf at h
  cases hs : L.schemes[i]? with
  | none => rw [hs] at h; cases h
  | some s =>
    rw [hs] at h
    dsimp only at h
    obtain ⟨j, hj, rfl⟩ := List.mem_mapIdx.1 h
    refine ⟨s, j, s.nodes[j], rfl, ?_, List.getElem_mem hj, rfl⟩
    unfold nodeAt
    rw [hs]
    simp [hj]

/-- a sorted list is the list that was built -/
theorem finish_build (W : World) (mc : Bool) (kws : List Keywords.KW) (hk : ∀ k ∈ kws, k.word ≠ [] ∧ k.shorter = none) :
    ∃ sorted, Hrc.finishList W mc (Hrc.filled W.ctx mc kws.length kws) = Keywords.build mc W.ctx.lower W.ctx.upper W.ctx.title sorted ∧
      ∀ k ∈ sorted, k.word ≠ [] ∧ k.shorter = none := by
  have hp : ∃ sorted : List Keywords.KW, sorted = (if kws.length < 2 then kws else W.qsort mc kws) ∧ sorted.Perm kws := by
    refine ⟨_, rfl, ?_⟩
    split
    · exact .refl _
    · exact W.qsort_perm _ _
  obtain ⟨sorted, hs, hperm⟩ := hp
  refine ⟨sorted, ?_, fun k h => hk k (hperm.mem_iff.1 h)⟩
  unfold Hrc.finishList Hrc.filled Keywords.build
  dsimp only
  rw [← hs]
  congr 1
  · funext c
    rw [Bool.eq_iff_iff, List.any_eq_true, List.any_eq_true]
    constructor
    · rintro ⟨k, h1, h2⟩
      refine ⟨k, hperm.mem_iff.2 h1, ?_⟩
      cases hw : k.word with
      | nil => exact absurd hw (hk k h1).1
      | cons a r => simpa [hw] using h2
    · rintro ⟨k, h1, h2⟩
      refine ⟨k, hperm.mem_iff.1 h1, ?_⟩
      cases hw : k.word with
      | nil => exact absurd hw (hk k (hperm.mem_iff.1 h1)).1
      | cons a r => simpa [hw] using h2
  · refine hperm.symm.foldl_eq' ?_ _
    intro a _ b _ z
    omega

/-- the parser works with the library `L` -/
structure WorksWith (chars : Chars) (L : Lib) (env : Env) : Prop where
  nodes : env.nodes = gramOf L
  kw : env.kw = kwOf (langOf chars L)
  maxBlock : 0 ≤ env.maxBlock

/-- **C63**: what a library loads from any sources, in any order, is what the parser's theorems ask for (C34, C58, C59, C60): the only conditions left
are those on marks and on numbered references, `SteadyLib`. -/
theorem C63_loaded_grammar_fits {W : World} {fuel : Nat} (protos : List Name) (hp : ∀ t ∈ protos, 58 ∉ t) (hf : protos.length < fuel) (as : List Act) (L : Lib)
    (h : acts W fuel (Lib.init protos) as = some L) (hs : SteadyLib L) (chars : Chars) (env : Env) (he : WorksWith chars L env) :
    Fit (langOf chars L) env := by
  obtain ⟨_, hall⟩ := Hrc.C61_loaded_schemes_are_fine protos hp hf as L h
  have plain : ∀ {x : RegExp.Ctx} {t : Name} {e : Expr}, RegExp.setRE x t = some (.ok e) → Steady e → Plain e := by
    intro x t e h1 h2
    obtain ⟨a, b, _⟩ := RegExp.C55_inside_the_tables _ _ _ h1
    exact ⟨h2.1, h2.2, b, a⟩
  refine ⟨?_, ?_, ?_, he.kw, ?_, he.maxBlock⟩
  · intro i start low regs hm
    rw [he.nodes] at hm
    obtain ⟨s, j, nd, h1, h2, h3, h4⟩ := gram_mem hm
    have hmem := List.mem_of_getElem? h1
    cases nd with
    | regexp n =>
      cases h4
      show Plain (exprAt L (startId i j))
      rw [exprAt_start, h2]
      obtain ⟨_, ⟨t, ht⟩, _⟩ := ((hall s hmem).2.2 _ h3).1
      exact plain ht (hs s hmem _ h3)
    | inherit _ _ => cases h4
    | block _ => cases h4
    | keywords _ => cases h4
  · intro i b hm
    rw [he.nodes] at hm
    obtain ⟨s, j, nd, h1, h2, h3, h4⟩ := gram_mem hm
    have hmem := List.mem_of_getElem? h1
    cases nd with
    | block n =>
      cases h4
      obtain ⟨_, ⟨t, u, ht, hu⟩, _⟩ := ((hall s hmem).2.2 _ h3).1
      have hst := hs s hmem _ h3
      show Plain (exprAt L (startId i j)) ∧ RegExp.lacks .start (exprAt L (startId i j)).body = true
      rw [exprAt_start, h2]
      exact ⟨plain ht hst.1, hst.2.2.1⟩
    | inherit _ _ => cases h4
    | regexp _ => cases h4
    | keywords _ => cases h4
  · intro i b hm
    rw [he.nodes] at hm
    obtain ⟨s, j, nd, h1, h2, h3, h4⟩ := gram_mem hm
    have hmem := List.mem_of_getElem? h1
    cases nd with
    | block n =>
      cases h4
      obtain ⟨_, ⟨t, u, ht, hu⟩, _⟩ := ((hall s hmem).2.2 _ h3).1
      have hst := hs s hmem _ h3
      show Plain (exprAt L (stopId i j)) ∧ 2 * (stopId i j / 2) = startId i j ∧
        RegExp.tracesIn (exprAt L (startId i j)).cMatch (exprAt L (startId i j)).cnMatch (exprAt L (stopId i j)).body = true
      rw [exprAt_start, exprAt_stop L i j n h2, h2]
      refine ⟨plain hu hst.2.1, by unfold stopId startId; omega, ?_⟩
      obtain ⟨_, _, _, _, hin⟩ := RegExp.C55_inside_the_tables _ _ _ hu
      refine traces_of _ hst.2.2.2 (m' := n.stop.cMatch) (n' := n.stop.cnMatch) ?_
      rw [← bracketNames_length ht]
      exact hin
    | inherit _ _ => cases h4
    | regexp _ => cases h4
    | keywords _ => cases h4
  · intro id
    show ∃ matchCase lower upper title sorted, (match kwAt L id with
      | some n => n.list
      | none => Keywords.build true (fun c => c) (fun c => c) (fun c => c) []) = _ ∧ _
    cases hk : kwAt L id with
    | none => exact ⟨true, _, _, _, [], rfl, by simp⟩
    | some n =>
      have hn : ∃ s ∈ L.schemes, SNode.keywords n ∈ s.nodes := by
        unfold kwAt nodeAt at hk
        cases hs1 : L.schemes[(Nat.unpair id).1]? with
        | none => rw [hs1] at hk; cases hk
        | some s =>
          rw [hs1] at hk
          simp only [Option.bind_some] at hk
          cases hs2 : s.nodes[(Nat.unpair id).2]? with
          | none => rw [hs2] at hk; cases hk
          | some nd =>
            rw [hs2] at hk
            cases nd with
            | keywords m => cases hk; exact ⟨s, List.mem_of_getElem? hs1, List.mem_of_getElem? hs2⟩
            | inherit _ _ => cases hk
            | regexp _ => cases hk
            | block _ => cases hk
      obtain ⟨s, h1, h2⟩ := hn
      obtain ⟨_, kws, h3, h4⟩ := ((hall s h1).2.2 _ h2).1
      obtain ⟨sorted, h5, h6⟩ := finish_build W n.matchCase kws (fun k hk => ⟨(h3 k hk).1, (h3 k hk).2.1⟩)
      exact ⟨_, _, _, _, sorted, by dsimp only; rw [h4, h5], h6⟩

/-- every repeated part takes a character at least -/
def EndingLib (L : Lib) : Prop := ∀ s ∈ L.schemes, ∀ nd ∈ s.nodes, match nd with
  | .regexp n => RegExp.repsTake n.start.body = true
  | .block b => RegExp.repsTake b.start.body = true ∧ RegExp.repsTake b.stop.body = true
  | .inherit _ _ => True
  | .keywords _ => True

theorem ending_of {L : Lib} (hl : EndingLib L) {chars : Chars} {env : Env} (he : WorksWith chars L env) : Ending (langOf chars L) env := by
  refine ⟨?_, ?_, ?_⟩
  · intro i start low regs hm
    rw [he.nodes] at hm
    obtain ⟨s, j, nd, h1, h2, h3, h4⟩ := gram_mem hm
    have hst := hl s (List.mem_of_getElem? h1) _ h3
    cases nd with
    | regexp n =>
      cases h4
      show RegExp.repsTake (exprAt L (startId i j)).body = true
      rw [exprAt_start, h2]
      exact hst
    | inherit _ _ => cases h4
    | block _ => cases h4
    | keywords _ => cases h4
  · intro i b hm
    rw [he.nodes] at hm
    obtain ⟨s, j, nd, h1, h2, h3, h4⟩ := gram_mem hm
    have hst := hl s (List.mem_of_getElem? h1) _ h3
    cases nd with
    | block n =>
      cases h4
      show RegExp.repsTake (exprAt L (startId i j)).body = true
      rw [exprAt_start, h2]
      exact hst.1
    | inherit _ _ => cases h4
    | regexp _ => cases h4
    | keywords _ => cases h4
  · intro i b hm
    rw [he.nodes] at hm
    obtain ⟨s, j, nd, h1, h2, h3, h4⟩ := gram_mem hm
    have hst := hl s (List.mem_of_getElem? h1) _ h3
    cases nd with
    | block n =>
      cases h4
      show RegExp.repsTake (exprAt L (stopId i j)).body = true
      rw [exprAt_stop L i j n h2]
      exact hst.2
    | inherit _ _ => cases h4
    | regexp _ => cases h4
    | keywords _ => cases h4

/-- **C63**: from the sources to the colours. A library loaded from any sources in any order, a sequence of calls of the parser on documents: what is
coloured depends on the sources and the documents only, not on what the expressions, which all parsers share, were used for before, between or at
the same time by others (one call at a time). -/
theorem C63_colours_come_from_sources_and_text_partial {W : World} {fuel : Nat} (protos : List Name) (hp : ∀ t ∈ protos, 58 ∉ t) (hf : protos.length < fuel)
    (as : List Act) (L : Lib) (h : acts W fuel (Lib.init protos) as = some L) (hs : SteadyLib L) (chars : Chars) (env : Env) (he : WorksWith chars L env)
    (base : Nat) (js : List TextParser.Job) (rs rs' : List TextParser.Result) (h1 : Runs (langOf chars L) env (TextParser.fresh base) js rs)
    (h2 : Runs (langOf chars L) env (TextParser.fresh base) js rs') : rs' = rs :=
  C59_colouring_does_not_depend_on_earlier_uses_partial _ _ (C63_loaded_grammar_fits protos hp hf as L h hs chars env he) base js rs rs' h1 h2

/-- schemes can be ranked so that a scheme inherits only schemes of lower rank and substitutions do not lead to higher ones -/
def RankedLib (L : Lib) (rank : Name → Nat) : Prop := ∀ s ∈ L.schemes, ∀ l virt, SNode.inherit l virt ∈ s.nodes →
  (∀ q, l.scheme = some q → rank q < rank s.name) ∧
  ∀ v ∈ virt, ∀ x y, v.virt.scheme = some x → v.subst.scheme = some y → rank y ≤ rank x

theorem schemeNo_name {L : Lib} {q : Name} {k : Nat} (h : schemeNo L q = some k) : (L.schemes[k]?).map (·.name) = some q := by
  unfold schemeNo at h
  rw [List.findIdx?_eq_some_iff_getElem] at h
  obtain ⟨h1, h2, _⟩ := h
  rw [List.getElem?_eq_getElem h1]
  simpa using h2

theorem grounded_of {L : Lib} {rank : Name → Nat} (hr : RankedLib L rank) {chars : Chars} {env : Env} (he : WorksWith chars L env) : TextParser.Grounded env := by
  refine TextParser.grounded_of_rank (fun i => rank (((L.schemes[i]?).map (·.name)).getD [])) ?_
  intro i k virt hm
  rw [he.nodes] at hm
  obtain ⟨s, j, nd, h1, h2, h3, h4⟩ := gram_mem hm
  cases nd with
  | inherit l v =>
    simp only [nodeOf, Node.inherit.injEq] at h4
    obtain ⟨h5, rfl⟩ := h4
    obtain ⟨a, b⟩ := hr s (List.mem_of_getElem? h1) l v h3
    constructor
    · cases hq : l.scheme with
      | none => rw [hq] at h5; cases h5
      | some q =>
        rw [hq] at h5
        have := schemeNo_name (show schemeNo L q = some k from h5.symm)
        rw [h1, this]
        exact a q hq
    · intro x y hxy
      obtain ⟨w, hw, e⟩ := List.mem_map.1 hxy
      unfold entryOf at e
      cases hv : w.virt.scheme with
      | none => rw [hv] at e; simp at e
      | some xv =>
        rw [hv] at e
        simp only [Option.bind_some] at e
        cases hx : schemeNo L xv with
        | none => rw [hx] at e; simp at e
        | some kx =>
          rw [hx] at e
          simp only [Prod.mk.injEq] at e
          obtain ⟨rfl, e⟩ := e
          cases hs : w.subst.scheme with
          | none => rw [hs] at e; cases e
          | some ys =>
            rw [hs] at e
            simp only [Option.bind_some] at e
            have h6 := schemeNo_name hx
            have h7 := schemeNo_name e
            rw [h6, h7]
            exact b w hw xv ys hv hs
  | regexp _ => cases h4
  | block _ => cases h4
  | keywords _ => cases h4

/-- **C63**: and every call ends, if repeated parts of expressions take a character and no scheme inherits without end -/
theorem C63_parsing_a_loaded_type_ends_partial {W : World} {fuel : Nat} (protos : List Name) (hp : ∀ t ∈ protos, 58 ∉ t) (hf : protos.length < fuel)
    (as : List Act) (L : Lib) (h : acts W fuel (Lib.init protos) as = some L) (hs : SteadyLib L) (hl : EndingLib L) (chars : Chars) (env : Env)
    (he : WorksWith chars L env) (rank : Name → Nat) (hr : RankedLib L rank) (base : Nat) (js : List TextParser.Job) (hj : ∀ j ∈ js, j.Ok) :
    ∃ rs, Runs (langOf chars L) env (TextParser.fresh base) js rs :=
  C60_every_call_ends_with_the_matcher _ _ (C63_loaded_grammar_fits protos hp hf as L h hs chars env he) (ending_of hl he) (grounded_of hr he) base js hj

end Verif.Engine
