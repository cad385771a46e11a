import Verif.TextParser.Agree
/-!
# More schemes

A parser that begins with one of the first `n` schemes of a grammar, which refer to each other only, does not notice schemes that are added.
-/
namespace Verif.TextParser
open Verif.VTList (VEntries resolve substLevel fires)

/-- `env` with another grammar -/
def Env.gram (env : Env) (nodes : Nat → List Node) (kw : Nat → Nat → Text → Int → Int → Option (Int × Option Nat)) : Env := { env with nodes := nodes, kw := kw }

/-- the first `n` schemes are the same in the other grammar, with their keyword lists, and refer to the first `n` only -/
structure SameOn (n : Nat) (env : Env) (nodes : Nat → List Node) (kw : Nat → Nat → Text → Int → Int → Option (Int × Option Nat)) : Prop where
  nodes : ∀ s, s < n → nodes s = env.nodes s
  kw : ∀ s, s < n → ∀ id, Node.keywords id ∈ env.nodes s → ∀ t, kw t id = env.kw t id
  inherits : ∀ s, s < n → ∀ k virt, Node.inherit (some k) virt ∈ env.nodes s → k < n ∧ ∀ x y, (x, some y) ∈ virt → y < n
  blocks : ∀ s, s < n → ∀ b, Node.block b ∈ env.nodes s → ∀ k, b.scheme = some k → k < n

/-! ## Proof -/

def LvIn (n : Nat) (levels : List VEntries) : Prop := ∀ e ∈ levels, ∀ x y, (x, some y) ∈ e → y < n

def InfoIn (n : Nat) (i : Info) : Prop := i.scheme < n ∧ LvIn n i.levels

theorem infoIn_mono {m n : Nat} (h : m ≤ n) {i : Info} (hi : InfoIn m i) : InfoIn n i := by
  unfold InfoIn LvIn at *
  grind

def CallIn (n : Nat) (env : Env) : Call → Prop
  | .colorize c _ | .outer c _ | .cols c _ _ _ => c.scheme < n ∧ LvIn n c.levels
  | .nodes ns levels _ _ _ => (∀ nd ∈ ns, ∃ s, s < n ∧ nd ∈ env.nodes s) ∧ LvIn n levels

def ZipsIn (n : Nat) (a b : Zip) : Prop := ∀ i, InZip i b → InZip i a ∨ InfoIn n i

theorem ZipsIn.refl (n : Nat) (a : Zip) : ZipsIn n a a := fun _ h => .inl h

theorem ZipsIn.trans {n : Nat} {a b c : Zip} (h1 : ZipsIn n a b) (h2 : ZipsIn n b c) : ZipsIn n a c := by
  intro i hi
  rcases h2 i hi with h | h
  · exact h1 i h
  · exact .inr h

theorem substLevel_in {n : Nat} (e : VEntries) : (∀ x y, (x, some y) ∈ e → y < n) → ∀ s, s < n → substLevel e s < n := by
  induction e with
  | nil => intro _ s hs; exact hs
  | cons p e ih =>
    intro h s hs
    show substLevel e (if s = p.1 then p.2.getD s else s) < n
    refine ih (fun x y hm => h x y (List.mem_cons_of_mem _ hm)) _ ?_
    split
    · obtain ⟨x, y⟩ := p
      cases y with
      | none => exact hs
      | some y => exact h x y (List.mem_cons_self ..)
    · exact hs

theorem resolve_in {n : Nat} (levels : List VEntries) : LvIn n levels → ∀ s, s < n → ∀ r, resolve s levels = some r → r.1 < n := by
  induction levels with
  | nil => intro _ s _ r h; simp [resolve] at h
  | cons e outer ih =>
    intro hl s hs r h
    have he := substLevel_in e (hl e (List.mem_cons_self ..)) s hs
    rw [resolve] at h
    cases hx : resolve (substLevel e s) outer with
    | some r' =>
      rw [hx] at h
      cases h
      exact ih (fun e he => hl e (List.mem_cons_of_mem _ he)) _ he _ hx
    | none =>
      rw [hx] at h
      dsimp only at h
      split at h
      · cases h; exact he
      · simp at h

theorem target_in {n : Nat} {levels : List VEntries} (hl : LvIn n levels) {s : Nat} (hs : s < n) {virt : VEntries} (hv : ∀ x y, (x, some y) ∈ virt → y < n) :
    (target s levels virt).1 < n ∧ LvIn n (target s levels virt).2 := by
  unfold target
  split
  · rename_i r hr
    exact ⟨resolve_in levels hl s hs _ hr, fun e he => hl e (resolve_suffix _ _ _ hr e he)⟩
  · dsimp only
    refine ⟨hs, ?_⟩
    split
    · exact hl
    · intro e he
      rcases List.mem_cons.1 he with rfl | he
      · exact hv
      · exact hl e he

theorem startLine_zip {env : Env} {c : Ctx} {st st1 : St} (h : startLine env c st = .ok st1) : st1.zip = st.zip := by
  obtain ⟨a, h1, h2⟩ := andThen_ok h
  have e1 : a.zip = st.zip := by
    unfold openLine at h1
    split at h1
    · split at h1
      · cases h1
      · cases h1; rfl
    · cases h1; rfl
  cases h2
  show (fill c a).zip = _
  rw [← e1]
  unfold fill
  split <;> rfl

theorem bump_zip (o : Out) (st : St) : (bump o st).zip = st.zip := by
  unfold bump
  split <;> rfl

theorem beforeBlock_zip {n : Nat} (env : Env) (b : Block) (s : Nat) (levels : List VEntries) (m : Match) (st : St) (h : s < n) (hl : LvIn n levels) :
    ZipsIn n st.zip (beforeBlock env b s levels m st).zip := by
  intro i hi
  unfold beforeBlock at hi
  dsimp only at hi
  split at hi
  · rcases inZip_push hi with h1 | rfl
    · exact .inl h1
    · exact .inr ⟨h, hl⟩
  · exact .inl hi

theorem afterBlock_zip {n : Nat} (env : Env) (b : Block) (s : Nat) (st0 st : St) (me : Match) : ZipsIn n st.zip (afterBlock env b s st0 st me).zip := by
  intro i hi
  unfold afterBlock at hi
  dsimp only at hi
  split at hi
  · split at hi
    · exact .inl (inZip_discard hi)
    · exact .inl (inZip_close hi)
  · exact .inl hi

section
variable {n : Nat} {env : Env} {nodes : Nat → List Node} {kw : Nat → Nat → Text → Int → Int → Option (Int × Option Nat)}

theorem allIn (s : Nat) (hs : s < n) : ∀ nd ∈ env.nodes s, ∃ s, s < n ∧ nd ∈ env.nodes s := fun _ h => ⟨s, hs, h⟩

theorem big_grow (hs : SameOn n env nodes kw) {c : Call} {st : St} {o : Out} {st' : St} (h : Big env c st o st') : CallIn n env c →
    Big (env.gram nodes kw) c st o st' ∧ ZipsIn n st.zip st'.zip := by
  induction h with
  | limit hl => intro _; exact ⟨.limit hl, .refl _ _⟩
  | colorize hl _ ih => intro hc; obtain ⟨a, b⟩ := ih hc; exact ⟨.colorize hl a, b⟩
  | outEnd hl => intro _; exact ⟨.outEnd hl, .refl _ _⟩
  | @outRep c me st st1 o st2 o' st' hl h1 hb1 hr hb ih1 ih2 =>
    intro hc
    obtain ⟨a1, b1⟩ := ih1 hc
    obtain ⟨a2, b2⟩ := ih2 hc
    refine ⟨.outRep (env := env.gram nodes kw) hl h1 a1 hr a2, ?_⟩
    rw [← startLine_zip h1]
    exact b1.trans b2
  | @outStop c me st st1 o st2 hl h1 hb1 hr ha1 ih1 =>
    intro hc
    obtain ⟨a1, b1⟩ := ih1 hc
    refine ⟨.outStop (env := env.gram nodes kw) hl h1 a1 hr ha1, ?_⟩
    rw [← startLine_zip h1]
    exact b1
  | @outNext c me st st1 o st2 o' st' hl h1 hb1 hr ha1 hb ih1 ih2 =>
    intro hc
    obtain ⟨a1, b1⟩ := ih1 hc
    obtain ⟨a2, b2⟩ := ih2 hc
    refine ⟨.outNext (env := env.gram nodes kw) hl h1 a1 hr ha1 a2, ?_⟩
    rw [← startLine_zip h1]
    exact b1.trans b2
  | colEnd hg => intro _; exact ⟨.colEnd hg, .refl _ _⟩
  | colBrk hg hb => intro _; exact ⟨.colBrk hg hb, .refl _ _⟩
  | @colRep c me len plen st o st1 hg hb hb1 hr ih =>
    intro hc
    obtain ⟨a, b⟩ := ih ⟨allIn _ hc.1, hc.2⟩
    refine ⟨.colRep (env := env.gram nodes kw) hg hb ?_ hr, b⟩
    show Big (env.gram nodes kw) (.nodes (nodes c.scheme) _ _ _ _) _ _ _
    rw [hs.nodes _ hc.1]
    exact a
  | @colGo c me len plen st o st1 o' st' hg hb hb1 hr hb2 ih1 ih2 =>
    intro hc
    obtain ⟨a, b⟩ := ih1 ⟨allIn _ hc.1, hc.2⟩
    obtain ⟨a2, b2⟩ := ih2 hc
    rw [bump_zip] at b2
    refine ⟨.colGo (env := env.gram nodes kw) hg hb ?_ hr a2, b.trans b2⟩
    show Big (env.gram nodes kw) (.nodes (nodes c.scheme) _ _ _ _) _ _ _
    rw [hs.nodes _ hc.1]
    exact a
  | nil => intro _; exact ⟨.nil, .refl _ _⟩
  | inhNone hb ih =>
    intro hc
    obtain ⟨a, b⟩ := ih ⟨fun nd h => hc.1 nd (List.mem_cons_of_mem _ h), hc.2⟩
    exact ⟨.inhNone a, b⟩
  | @inhHit s virt ns levels low hi me st o st1 hb hne ih =>
    intro hc
    obtain ⟨s0, h0, hm⟩ := hc.1 _ (List.mem_cons_self ..)
    obtain ⟨k1, k2⟩ := hs.inherits s0 h0 s virt hm
    obtain ⟨t1, t2⟩ := target_in hc.2 k1 k2
    obtain ⟨a, b⟩ := ih ⟨allIn _ t1, t2⟩
    refine ⟨.inhHit (env := env.gram nodes kw) ?_ hne, b⟩
    show Big (env.gram nodes kw) (.nodes (nodes _) _ _ _ _) _ _ _
    rw [hs.nodes _ t1]
    exact a
  | @inhMiss s virt ns levels low hi me st o st1 o' st' hb1 hn hb2 ih1 ih2 =>
    intro hc
    obtain ⟨s0, h0, hm⟩ := hc.1 _ (List.mem_cons_self ..)
    obtain ⟨k1, k2⟩ := hs.inherits s0 h0 s virt hm
    obtain ⟨t1, t2⟩ := target_in hc.2 k1 k2
    obtain ⟨a, b⟩ := ih1 ⟨allIn _ t1, t2⟩
    obtain ⟨a2, b2⟩ := ih2 ⟨fun nd h => hc.1 nd (List.mem_cons_of_mem _ h), hc.2⟩
    refine ⟨.inhMiss (env := env.gram nodes kw) ?_ hn a2, b.trans b2⟩
    show Big (env.gram nodes kw) (.nodes (nodes _) _ _ _ _) _ _ _
    rw [hs.nodes _ t1]
    exact a
  | @kwHit id ns levels low hi me st nn r hk =>
    intro hc
    obtain ⟨s0, h0, hm⟩ := hc.1 _ (List.mem_cons_self ..)
    exact ⟨.kwHit (env := env.gram nodes kw) ((congrFun (congrFun (congrFun (hs.kw s0 h0 id hm st.tick) _) _) _).trans hk), .refl _ _⟩
  | @kwMiss id ns levels low hi me st o st' hk hb ih =>
    intro hc
    obtain ⟨s0, h0, hm⟩ := hc.1 _ (List.mem_cons_self ..)
    obtain ⟨a, b⟩ := ih ⟨fun nd h => hc.1 nd (List.mem_cons_of_mem _ h), hc.2⟩
    exact ⟨.kwMiss (env := env.gram nodes kw) ((congrFun (congrFun (congrFun (hs.kw s0 h0 id hm st.tick) _) _) _).trans hk) a, b⟩
  | reHit hx he => intro _; exact ⟨.reHit (env := env.gram nodes kw) hx he, .refl _ _⟩
  | reZero hx he hb ih =>
    intro hc
    obtain ⟨a, b⟩ := ih ⟨fun nd h => hc.1 nd (List.mem_cons_of_mem _ h), hc.2⟩
    exact ⟨.reZero (env := env.gram nodes kw) hx he a, b⟩
  | reMiss hx hb ih =>
    intro hc
    obtain ⟨a, b⟩ := ih ⟨fun nd h => hc.1 nd (List.mem_cons_of_mem _ h), hc.2⟩
    exact ⟨.reMiss (env := env.gram nodes kw) hx a, b⟩
  | blNone hs' hb ih =>
    intro hc
    obtain ⟨a, b⟩ := ih ⟨fun nd h => hc.1 nd (List.mem_cons_of_mem _ h), hc.2⟩
    exact ⟨.blNone hs' a, b⟩
  | blMiss hs' hx hb ih =>
    intro hc
    obtain ⟨a, b⟩ := ih ⟨fun nd h => hc.1 nd (List.mem_cons_of_mem _ h), hc.2⟩
    exact ⟨.blMiss (env := env.gram nodes kw) hs' hx a, b⟩
  | @blZero b s ns levels low hi me st m o st1 o' st' hs' hx hb1 he hl hb ih1 ih2 =>
    intro hc
    obtain ⟨s0, h0, hm⟩ := hc.1 _ (List.mem_cons_self ..)
    obtain ⟨t1, t2⟩ := target_in hc.2 (hs.blocks s0 h0 b hm s hs') (virt := []) (fun x y h => by cases h)
    obtain ⟨a1, b1⟩ := ih1 ⟨t1, t2⟩
    obtain ⟨a2, b2⟩ := ih2 ⟨fun nd h => hc.1 nd (List.mem_cons_of_mem _ h), hc.2⟩
    refine ⟨.blZero (env := env.gram nodes kw) hs' hx a1 he hl a2, ?_⟩
    exact (beforeBlock_zip env b _ _ m st.tock t1 t2).trans (b1.trans ((afterBlock_zip env b _ st st1 o.me).trans b2))
  | @blHit b s ns levels low hi me st m o st1 hs' hx hb1 hne ih1 =>
    intro hc
    obtain ⟨s0, h0, hm⟩ := hc.1 _ (List.mem_cons_self ..)
    obtain ⟨t1, t2⟩ := target_in hc.2 (hs.blocks s0 h0 b hm s hs') (virt := []) (fun x y h => by cases h)
    obtain ⟨a1, b1⟩ := ih1 ⟨t1, t2⟩
    refine ⟨.blHit (env := env.gram nodes kw) hs' hx a1 hne, ?_⟩
    exact (beforeBlock_zip env b _ _ m st.tock t1 t2).trans (b1.trans (afterBlock_zip env b _ st st1 o.me))

theorem cb_grow (hs : SameOn n env nodes kw) {base : Nat} {fs : List Frame} {me : Match} {st : St} {me1 : Match} {st' : St} (h : CB env base fs me st me1 st') :
    base < n → (∀ f ∈ fs, InfoIn n f.info) → CB (env.gram nodes kw) base fs me st me1 st' ∧ ZipsIn n st.zip st'.zip := by
  induction h with
  | @nil me st o st1 hb =>
    intro h0 _
    obtain ⟨a, b⟩ := big_grow hs hb ⟨h0, fun e he => by cases he⟩
    exact ⟨.nil a, b⟩
  | @cons f fs me st o st1 me1 st' hb hcb ih =>
    intro h0 hfs
    obtain ⟨a, b⟩ := big_grow hs hb (hfs f (List.mem_cons_self ..))
    obtain ⟨a2, b2⟩ := ih h0 (fun g hg => hfs g (List.mem_cons_of_mem _ hg))
    refine ⟨.cons (env := env.gram nodes kw) a a2, b.trans fun i hi => ?_⟩
    rcases b2 i hi with h | h
    · exact .inl (afterFrame_zip h)
    · exact .inr h

/-- the parser's state knows only the first `n` schemes -/
def KnowsOnly (n : Nat) (p : PState) : Prop := p.base < n ∧ ∀ i, InTrees i p.cache → InfoIn n i

theorem parses_grow (hs : SameOn n env nodes kw) {p : PState} (hp : KnowsOnly n p) {from' num : Int} {mode : Mode} {r : Result}
    (h : Parses env p from' num mode r) : Parses (env.gram nodes kw) p from' num mode r ∧ KnowsOnly n r.after := by
  obtain ⟨fuel, h⟩ := h.parse
  obtain ⟨z, me, st, hz, hcb, rfl⟩ := parse_cb h
  have hin := entry_in hz
  have hs1 : SameOn n (env.call from' num mode) nodes kw := ⟨hs.nodes, hs.kw, hs.inherits, hs.blocks⟩
  obtain ⟨a, b⟩ := cb_grow hs1 hcb hp.1 (fun f hf' => hp.2 _ (hin _ (.inr ⟨f, hf', .inl rfl⟩)))
  refine ⟨parses_of_cb (env := env.gram nodes kw) hz a, hp.1, fun i hi => ?_⟩
  have hi : InTrees i (if mode = .update then st.zip.root else p.cache) := hi
  split at hi
  · rcases b i (.inl hi) with h | h
    · exact hp.2 i (hin i h)
    · exact h
  · exact hp.2 i hi

end

end Verif.TextParser
