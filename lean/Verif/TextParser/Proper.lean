import Verif.TextParser.Resume
/-!
# What the parser asks

Every query of an expression stays within its line, the back trace of an end expression is a match of the start expression of its block,
and positions only move forward (`big_post`). Used for C59 (expressions answered by the real matcher) and C60 (parsing ends).
-/
namespace Verif.TextParser
open Verif.VTList (VEntries resolve)

/-- the query stays within its text -/
def Within (q : Query) : Prop := 0 ≤ q.pos ∧ q.pos ≤ q.len ∧ q.len ≤ q.text.length

/-- `m` is a match of the start expression, in `t`, of a block of the grammar whose end expression is `re` -/
def Traced (env : Env) (re : Nat) (t : Text) (m : Match) : Prop :=
  ∃ b s k q, Node.block b ∈ env.nodes s ∧ b.stop = re ∧ env.rx k q = (true, m) ∧ q.re = b.start ∧ q.text = t ∧ q.back = none ∧ Within q

/-- the expression is the start expression of a node of the grammar -/
def Starts (env : Env) (re : Nat) : Prop :=
  ∃ s, (∃ low regs, Node.re re low regs ∈ env.nodes s) ∨ ∃ b, Node.block b ∈ env.nodes s ∧ b.start = re

/-- the expression is the start expression of a block of the grammar -/
def Opens (env : Env) (re : Nat) : Prop := ∃ s b, Node.block b ∈ env.nodes s ∧ b.start = re

/-- the queries the parser makes -/
def Asked (env : Env) (q : Query) : Prop :=
  Within q ∧ ((q.back = none ∧ Starts env q.re) ∨ ∃ t m, q.back = some (t, m) ∧ Traced env q.re t m)

/-- expressions and keyword lists report what they find within the range searched; the start of a block begins at the position asked (an
expression without `\m` is tried there only); a keyword found is not empty -/
structure Fits (env : Env) : Prop where
  rx : ∀ t q m, Asked env q → env.rx t q = (true, m) → q.pos ≤ m.s ∧ m.s ≤ m.e ∧ m.e ≤ q.len ∧
    (Opens env q.re → q.back = none → m.s = q.pos)
  kw : ∀ t id s x low n r, 0 ≤ x → x ≤ low → low ≤ (s.length : Int) → env.kw t id s x low = some (n, r) → 0 < n ∧ x + n ≤ low
  maxBlock : 0 ≤ env.maxBlock

/-- the length of a line -/
def lenAt (env : Env) (l : Int) : Int := ((env.line l).getD []).length

/-! ## Entries of the cache -/

inductive InTree (i : Info) : Tree → Prop
  | here {e : Int} {ks : List Tree} : InTree i (.node i e ks)
  | kid {j : Info} {e : Int} {ks : List Tree} {k : Tree} : k ∈ ks → InTree i k → InTree i (.node j e ks)

def InTrees (i : Info) (ts : List Tree) : Prop := ∃ t ∈ ts, InTree i t

def InZip (i : Info) (z : Zip) : Prop := InTrees i z.root ∨ ∃ f ∈ z.frames, i = f.info ∨ InTrees i f.kids

theorem InTrees.append {i : Info} {a b : List Tree} (h : InTrees i (a ++ b)) : InTrees i a ∨ InTrees i b := by
  obtain ⟨t, ht, hi⟩ := h
  rcases List.mem_append.1 ht with ht | ht
  · exact .inl ⟨t, ht, hi⟩
  · exact .inr ⟨t, ht, hi⟩

theorem inZip_addKid {i : Info} {z : Zip} {t : Tree} (h : InZip i (z.addKid t)) : InZip i z ∨ InTree i t := by
  have one : InTrees i [t] → InTree i t := by
    rintro ⟨u, hu, hi⟩; simp only [List.mem_singleton] at hu; subst hu; exact hi
  unfold Zip.addKid at h
  split at h
  · rcases h with h | ⟨f, hf, h⟩
    · rcases h.append with h | h
      · exact .inl (.inl h)
      · exact .inr (one h)
    · exact .inl (.inr ⟨f, hf, h⟩)
  · rename_i f fs hfs
    rcases h with h | ⟨g, hg, h⟩
    · exact .inl (.inl h)
    · rcases List.mem_cons.1 hg with rfl | hg
      · rcases h with h | h
        · exact .inl (.inr ⟨f, by rw [hfs]; simp, .inl h⟩)
        · rcases InTrees.append h with h | h
          · exact .inl (.inr ⟨f, by rw [hfs]; simp, .inr h⟩)
          · exact .inr (one h)
      · exact .inl (.inr ⟨g, by rw [hfs]; simp [hg], h⟩)

theorem inZip_push {i j : Info} {z : Zip} (h : InZip i (z.push j)) : InZip i z ∨ i = j := by
  rcases h with h | ⟨f, hf, h⟩
  · exact .inl (.inl h)
  · rcases List.mem_cons.1 hf with rfl | hf
    · rcases h with h | ⟨t, ht, _⟩
      · exact .inr h
      · simp at ht
    · exact .inl (.inr ⟨f, hf, h⟩)

theorem inZip_discard {i : Info} {z : Zip} (h : InZip i z.discard) : InZip i z := by
  rcases h with h | ⟨f, hf, h⟩
  · exact .inl h
  · exact .inr ⟨f, List.mem_of_mem_tail hf, h⟩

theorem inZip_close {i : Info} {z : Zip} {e : Int} (h : InZip i (z.close e)) : InZip i z := by
  unfold Zip.close at h
  split at h
  · exact h
  · rename_i f fs hfs
    rcases inZip_addKid h with h | h
    · rcases h with h | ⟨g, hg, h⟩
      · exact .inl h
      · exact .inr ⟨g, by rw [hfs]; simp [hg], h⟩
    · cases h with
      | here => exact .inr ⟨f, by rw [hfs]; simp, .inl rfl⟩
      | kid hk hi => exact .inr ⟨f, by rw [hfs]; simp, .inr ⟨_, hk, hi⟩⟩

/-- the substitutions come from the grammar -/
def FromG (env : Env) (levels : List VEntries) : Prop := ∀ v ∈ levels, ∃ s k, Node.inherit (some k) v ∈ env.nodes s

/-- an entry remembers a block of the grammar with a match of its start, and substitutions of the grammar -/
def InfoOk (env : Env) (i : Info) : Prop := Traced env i.block.stop i.back i.mat ∧ FromG env i.levels

/-- entries are old ones or proper ones -/
def Zips (env : Env) (a b : Zip) : Prop := ∀ i, InZip i b → InZip i a ∨ InfoOk env i

theorem Zips.refl (env : Env) (a : Zip) : Zips env a a := fun _ h => .inl h

theorem Zips.trans {env : Env} {a b c : Zip} (h1 : Zips env a b) (h2 : Zips env b c) : Zips env a c := by
  intro i hi
  rcases h2 i hi with h | h
  · exact h1 i h
  · exact .inr h

/-! ## Before and after a call -/

def CtxOk (env : Env) (c : Ctx) : Prop := (∀ re t m, c.stop = some (re, t, m) → Traced env re t m) ∧ FromG env c.levels

def NsOk (env : Env) (ns : List Node) : Prop := ∀ n ∈ ns, ∃ s, n ∈ env.nodes s

theorem resolve_suffix (s : Nat) (levels : List VEntries) : ∀ r, resolve s levels = some r → ∀ v ∈ r.2, v ∈ levels := by
  induction levels generalizing s with
  | nil => intro r h; simp [resolve] at h
  | cons e outer ih =>
    intro r h v hv
    rw [resolve] at h
    cases hx : resolve (VTList.substLevel e s) outer with
    | some r' =>
      rw [hx] at h
      cases h
      exact List.mem_cons_of_mem _ (ih _ _ hx v hv)
    | none =>
      rw [hx] at h
      dsimp only at h
      split at h
      · cases h; exact List.mem_cons_of_mem _ hv
      · simp at h

theorem target_fromG {env : Env} {s : Nat} {levels : List VEntries} {virt : VEntries} (h : FromG env levels)
    (hv : virt ≠ [] → ∃ s k, Node.inherit (some k) virt ∈ env.nodes s) : FromG env (target s levels virt).2 := by
  unfold target
  split
  · rename_i r hr
    intro v hm
    exact h v (resolve_suffix _ _ _ hr v hm)
  · dsimp only
    split
    · exact h
    · rename_i hne
      intro v hm
      rcases List.mem_cons.1 hm with rfl | hm
      · exact hv hne
      · exact h v hm

/-- inside a line -/
structure Here (env : Env) (me : Match) (st : St) : Prop where
  cleared : st.cleared = st.line
  line : st.line < env.endL
  pos : 0 ≤ st.gx
  mat : me.s ≤ me.e ∧ me.e ≤ lenAt env st.line

def Pre (env : Env) (c : Call) (st : St) : Prop :=
  match c with
  | .colorize c _ | .outer c _ => CtxOk env c ∧ (st.line < env.endL → 0 ≤ st.gx ∧ st.gx ≤ lenAt env st.line)
  | .cols c me len plen => CtxOk env c ∧ Here env me st ∧ me.s ≤ len ∧ len ≤ lenAt env st.line ∧ plen = lenAt env st.line
  | .nodes ns levels low hi me => NsOk env ns ∧ FromG env levels ∧ Here env me st ∧ st.gx ≤ me.s ∧ low = me.s ∧ low ≤ hi ∧ hi ≤ lenAt env st.line

/-- the end of a block or of the range was reached -/
def Ended (env : Env) (st : St) (o : Out) (st' : St) : Prop :=
  st.line ≤ st'.line ∧ (st'.line < env.endL → st'.cleared = st'.line ∧ 0 ≤ o.me.s ∧ o.me.s ≤ o.me.e ∧ o.me.e ≤ lenAt env st'.line ∧
    (st'.line = st.line → st.gx ≤ o.me.s))

def Limit (me : Match) (st : St) (o : Out) (st' : St) : Prop := o.me = me ∧ st'.line = st.line ∧ st'.cleared = st.cleared ∧ st'.hit = true

def Post (env : Env) (c : Call) (st : St) (o : Out) (st' : St) : Prop :=
  Zips env st.zip st'.zip ∧
  match c with
  | .colorize _ me => Limit me st o st' ∨ Ended env st o st'
  | .outer _ _ => Ended env st o st'
  | .cols _ _ _ _ => st.line ≤ st'.line ∧
      (o.rep = true → (st'.line < env.endL → 0 ≤ st'.gx ∧ st'.gx ≤ lenAt env st'.line) ∧ (st'.line = st.line → st.gx < st'.gx)) ∧
      (o.rep = false → (st'.line = st.line ∧ st'.cleared = st.cleared) ∨ env.endL ≤ st'.line)
  | .nodes _ _ _ _ _ =>
      (o.res = .nothing → st'.line = st.line ∧ st'.gx = st.gx ∧ st'.cleared = st.cleared) ∧
      (o.res ≠ .nothing → (st'.line = st.line ∧ st.gx < st'.gx ∧ st'.gx ≤ lenAt env st.line ∧ st'.cleared = st.cleared) ∨
        (o.res = .scheme ∧ st.line < st'.line ∧ (st'.line < env.endL → 0 ≤ st'.gx ∧ st'.gx ≤ lenAt env st'.line)))

theorem NsOk.tail {env : Env} {n : Node} {ns : List Node} (h : NsOk env (n :: ns)) : NsOk env ns := fun m hm => h m (List.mem_cons_of_mem _ hm)

theorem NsOk.all (env : Env) (s : Nat) : NsOk env (env.nodes s) := fun _ hn => ⟨s, hn⟩

theorem str_len {env : Env} {st : St} (h : st.cleared = st.line) : ((st.str env).length : Int) = lenAt env st.line := by
  unfold St.str lenAt; rw [h]

/-- the query for the end of the block is one of those expected -/
theorem endSearch_asked {env : Env} {c : Ctx} (hc : CtxOk env c) {st : St} (h0 : 0 ≤ st.gx) (h1 : st.gx ≤ lenAt env st.line) (hcl : st.cleared = st.line)
    {re : Nat} {t : Text} {m : Match} (hs : c.stop = some (re, t, m)) :
    Asked env ⟨re, st.str env, st.gx, (st.str env).length, st.schemeStart, some (t, m)⟩ :=
  ⟨⟨h0, by show st.gx ≤ _; rw [str_len hcl]; exact h1, Int.le_refl _⟩, .inr ⟨t, m, rfl, hc.1 re t m hs⟩⟩

/-- the end found, or the end of the range searched, is on the line, from the position on -/
theorem endSearch_in {env : Env} (hf : Fits env) {c : Ctx} (hc : CtxOk env c) (me : Match) {st : St} (h0 : 0 ≤ st.gx) (h1 : st.gx ≤ lenAt env st.line)
    (hcl : st.cleared = st.line) :
    st.gx ≤ (endSearch env c me st).2.s ∧ (endSearch env c me st).2.s ≤ (endSearch env c me st).2.e ∧
      (endSearch env c me st).2.e ≤ lenAt env st.line := by
  have hl := str_len (env := env) hcl
  have hm := hf.maxBlock
  have hd : ∀ d : Int, d = (if st.gx + env.maxBlock > (st.str env).length then ((st.str env).length : Int) else st.gx + env.maxBlock) →
      st.gx ≤ d ∧ d ≤ d ∧ d ≤ lenAt env st.line := by
    intro d hd
    rw [hl] at hd
    split at hd <;> omega
  unfold endSearch
  split
  · exact hd _ rfl
  · rename_i re back m hs
    dsimp only
    split
    · rename_i ha
      have hq := endSearch_asked hc h0 h1 hcl hs
      obtain ⟨a1, a2, a3, _⟩ := hf.rx st.tick _ (env.rx st.tick ⟨re, st.str env, st.gx, (st.str env).length, st.schemeStart, some (back, m)⟩).2 hq (by
        rw [← ha])
      have a3 : _ ≤ ((st.str env).length : Int) := a3
      exact ⟨a1, a2, hl ▸ a3⟩
    · exact hd _ rfl

theorem hiLen_in {env : Env} (hf : 0 ≤ env.maxBlock) {s len : Int} (h : s ≤ len) : s ≤ hiLen env s len ∧ hiLen env s len ≤ len := by
  unfold hiLen; split <;> omega

/-- the query of a start expression is one of those expected -/
theorem startQ_asked {env : Env} {st : St} {me : Match} {low hi : Int} (h : Here env me st) (hg : st.gx ≤ low) (hl : low ≤ hi) (hh : hi ≤ lenAt env st.line)
    {re : Nat} (hs : Starts env re) (b : Bool) : Asked env (startQ env re st (if b then low else hi)) := by
  have := str_len (env := env) h.cleared
  refine ⟨⟨h.pos, ?_, ?_⟩, .inl ⟨rfl, hs⟩⟩
  · show st.gx ≤ if b = true then low else hi
    split <;> omega
  · show (if b = true then low else hi) ≤ ((st.str env).length : Int)
    rw [this]
    split <;> omega

theorem startQ_len {env : Env} {re : Nat} {st : St} {len : Int} : (startQ env re st len).len = len := rfl
theorem startQ_pos {env : Env} {re : Nat} {st : St} {len : Int} : (startQ env re st len).pos = st.gx := rfl

theorem Here.tock {env : Env} {me : Match} {st : St} (h : Here env me st) : Here env me st.tock := ⟨h.cleared, h.line, h.pos, h.mat⟩

theorem Here.move {env : Env} {me : Match} {st st' : St} (h : Here env me st) (h1 : st'.line = st.line) (h2 : st'.gx = st.gx) (h3 : st'.cleared = st.cleared) :
    Here env me st' := ⟨by rw [h3, h1]; exact h.cleared, by rw [h1]; exact h.line, by rw [h2]; exact h.pos, by rw [h1]; exact h.mat⟩

theorem startLine_here {env : Env} (hf : Fits env) {c : Ctx} (hc : CtxOk env c) (me : Match) {st st1 : St} (hl : st.line < env.endL) (h0 : 0 ≤ st.gx)
    (h1 : st.gx ≤ lenAt env st.line) (h : startLine env c st = .ok st1) :
    Pre env (.cols c (endSearch env c me st1).2 (if c.low then (endSearch env c me st1).2.s else (st1.str env).length) (st1.str env).length) st1.tock ∧
      st.gx ≤ (endSearch env c me st1).2.s := by
  obtain ⟨g1, g2, g3, _⟩ := startLine_facts h
  have hcl : st1.cleared = st1.line := by rw [g3, g2]
  have e := endSearch_in hf hc me (st := st1) (by omega) (by rw [g1, g2]; exact h1) hcl
  refine ⟨⟨hc, ⟨hcl, by show st1.line < _; omega, by show 0 ≤ st1.gx; omega, e.2.1, e.2.2⟩, ?_, ?_, str_len hcl⟩, by omega⟩
  · rw [str_len hcl]
    split <;> omega
  · show _ ≤ lenAt env st1.line
    rw [str_len hcl]
    split <;> omega

/-- what is known after a block of the list -/
theorem block_post {env : Env} {b : Block} {s : Nat} {levels : List VEntries} {low hi : Int} {me m : Match} {st : St} {o : Out} {st1 : St}
    (hl : FromG env levels) (hh : Here env me st) (hg : st.gx ≤ me.s) (hm : m.s = st.gx ∧ m.s ≤ m.e)
    (hz : ∃ s', Node.block b ∈ env.nodes s') (hx : env.rx st.tick (startQ env b.start st (if b.low then low else hi)) = (true, m))
    (hq : Within (startQ env b.start st (if b.low then low else hi)))
    (ih : Post env (.colorize (blockCtx env b s levels st m) me) (beforeBlock env b (target s levels []).1 (target s levels []).2 m st.tock) o st1) :
    Zips env st.zip (afterBlock env b (target s levels []).1 st st1 o.me).zip ∧
    ((st1.line = st.line ∧ st1.cleared = st.cleared ∧ st.gx ≤ o.me.e ∧ o.me.e ≤ lenAt env st.line) ∨
      (st.line < st1.line ∧ (st1.line < env.endL → 0 ≤ o.me.e ∧ o.me.e ≤ lenAt env st1.line))) := by
  obtain ⟨z, ih⟩ := ih
  constructor
  · obtain ⟨s', hs'⟩ := hz
    have z1 : Zips env st.zip (beforeBlock env b (target s levels []).1 (target s levels []).2 m st.tock).zip := by
      unfold beforeBlock
      dsimp only
      split
      · intro i hi
        rcases inZip_push hi with h | rfl
        · exact .inl h
        · exact .inr ⟨⟨b, s', _, _, hs', rfl, hx, rfl, rfl, rfl, hq⟩, target_fromG hl (by simp)⟩
      · exact .refl _ _
    refine (z1.trans z).trans ?_
    unfold afterBlock
    dsimp only
    split
    · split
      · intro i hi; exact .inl (inZip_discard hi)
      · intro i hi; exact .inl (inZip_close hi)
    · exact .refl _ _
  · have hm1 := hh.mat
    rcases ih with ⟨a1, a2, a3, _⟩ | ⟨a1, a2⟩
    · left
      have a2 : st1.line = st.line := a2
      have a3 : st1.cleared = st.cleared := a3
      rw [a1]
      exact ⟨a2, a3, by omega, hm1.2⟩
    · have a1 : st.line ≤ st1.line := a1
      rcases Int.lt_or_eq_of_le a1 with h | h
      · right
        refine ⟨h, fun hl => ?_⟩
        obtain ⟨b1, b2, b3, b4, _⟩ := a2 hl
        exact ⟨by omega, b4⟩
      · left
        have hl := hh.line
        obtain ⟨b1, b2, b3, b4, b5⟩ := a2 (by omega)
        have b5 : m.e ≤ o.me.s := b5 h.symm
        refine ⟨h.symm, by rw [b1, hh.cleared, h], by omega, by rw [h]; exact b4⟩

theorem big_post {env : Env} (hf : Fits env) {c : Call} {st : St} {o : Out} {st' : St} (h : Big env c st o st') : Pre env c st → Post env c st o st' := by
  induction h with
  | limit => intro _; exact ⟨.refl _ _, .inl ⟨rfl, rfl, rfl, rfl⟩⟩
  | colorize _ _ ih =>
    intro hp
    obtain ⟨z, e⟩ := ih hp
    exact ⟨z, .inr e⟩
  | @outEnd c me st hl => intro hp; exact ⟨.refl _ _, Int.le_refl _, fun h => absurd h hl⟩
  | @outRep c me st st1 o st2 o' st' hl h1 hb1 hr hb ih1 ih2 =>
    intro hp
    obtain ⟨g1, g2, _, _, _, g6, _⟩ := startLine_facts h1
    obtain ⟨k1, k2⟩ := startLine_here hf hp.1 me hl (hp.2 hl).1 (hp.2 hl).2 h1
    obtain ⟨z1, a1, a2, a3⟩ := ih1 k1
    have a1 : st1.line ≤ st2.line := a1
    obtain ⟨z2, b1, b2⟩ := ih2 ⟨hp.1, (a2 hr).1⟩
    have a2 : st2.line = st1.line → st1.gx < st2.gx := (a2 hr).2
    have z1 : Zips env st1.zip st2.zip := z1
    rw [g6] at z1
    refine ⟨z1.trans z2, by omega, fun hl' => ?_⟩
    obtain ⟨c1, c2, c3, c4, c5⟩ := b2 hl'
    exact ⟨c1, c2, c3, c4, fun h => by have := c5 (by omega); have := a2 (by omega); omega⟩
  | @outStop c me st st1 o st2 hl h1 hb1 hr ha ih1 =>
    intro hp
    obtain ⟨g1, g2, g3, _, _, g6, _⟩ := startLine_facts h1
    obtain ⟨k1, k2⟩ := startLine_here hf hp.1 me hl (hp.2 hl).1 (hp.2 hl).2 h1
    have k3 := k1.2.1.mat
    have k3 : _ ∧ _ ≤ lenAt env st1.line := k3
    obtain ⟨z1, a1, _, a3⟩ := ih1 k1
    have z1 : Zips env st1.zip st2.zip := z1
    rw [g6] at z1
    have a1 : st1.line ≤ st2.line := a1
    refine ⟨z1, by show st.line ≤ st2.line; omega, fun hl' => ?_⟩
    have hl' : st2.line < env.endL := hl'
    rcases a3 hr with ⟨a3, a4⟩ | a3
    · have a3 : st2.line = st1.line := a3
      have a4 : st2.cleared = st1.cleared := a4
      have hg := (hp.2 hl).1
      refine ⟨by show st2.cleared = st2.line; rw [a4, a3, g3, g2], by show 0 ≤ (endSearch env c me st1).2.s; omega, k3.1, ?_, fun _ => k2⟩
      show _ ≤ lenAt env st2.line
      rw [a3]
      exact k3.2
    · have a3 : env.endL ≤ st2.line := a3
      omega
  | @outNext c me st st1 o st2 o' st' hl h1 hb1 hr ha hb ih1 ih2 =>
    intro hp
    obtain ⟨g1, g2, g3, _, _, g6, _⟩ := startLine_facts h1
    obtain ⟨k1, k2⟩ := startLine_here hf hp.1 me hl (hp.2 hl).1 (hp.2 hl).2 h1
    obtain ⟨z1, a1, _, a3⟩ := ih1 k1
    have z1 : Zips env st1.zip st2.zip := z1
    rw [g6] at z1
    have a1 : st1.line ≤ st2.line := a1
    obtain ⟨z2, b1, b2⟩ := ih2 ⟨hp.1, fun _ => ⟨Int.le_refl 0, by show (0 : Int) ≤ lenAt env _; unfold lenAt; omega⟩⟩
    have b1 : st2.line + 1 ≤ _ := b1
    refine ⟨z1.trans z2, by omega, fun hl' => ?_⟩
    obtain ⟨c1, c2, c3, c4, c5⟩ := b2 hl'
    exact ⟨c1, c2, c3, c4, fun h => by omega⟩
  | colEnd =>
    intro hp
    exact ⟨.refl _ _, Int.le_refl _, fun h => by simp at h, fun _ => .inl ⟨rfl, rfl⟩⟩
  | @colBrk c me len plen st hg hb =>
    intro hp
    have := hp.2.1.line
    exact ⟨.refl _ _, by show st.line ≤ env.endL; omega, fun h => by simp at h, fun _ => .inr (Int.le_refl _)⟩
  | @colRep c me len plen st o st1 hg hb hb1 hr ih =>
    intro hp
    obtain ⟨hp1, hh, hp2, hp3, hp4⟩ := hp
    have hi := hiLen_in hf.maxBlock hp2
    obtain ⟨z, a1, a2⟩ := ih ⟨.all _ _, hp1.2, hh.tock, hg, rfl, hi.1, by show _ ≤ lenAt env st.line; omega⟩
    have z : Zips env st.zip st1.zip := z
    have hne : o.res ≠ .nothing := by rcases hr with h | h <;> rw [h.1] <;> simp
    rcases a2 hne with ⟨b1, b2, b3, b4⟩ | ⟨b0, b1, b2⟩
    · have b1 : st1.line = st.line := b1
      have b2 : st.gx < st1.gx := b2
      have b3 : st1.gx ≤ lenAt env st.line := b3
      have := hh.pos
      exact ⟨z, by omega, fun _ => ⟨fun _ => ⟨by omega, by rw [b1]; exact b3⟩, fun _ => b2⟩, fun h => by simp at h⟩
    · have b1 : st.line < st1.line := b1
      exact ⟨z, by omega, fun _ => ⟨b2, fun h => by omega⟩, fun h => by simp at h⟩
  | @colGo c me len plen st o st1 o' st' hg hb hb1 hr hb2 ih1 ih2 =>
    intro hp
    obtain ⟨hp1, hh, hp2, hp3, hp4⟩ := hp
    have hi := hiLen_in hf.maxBlock hp2
    obtain ⟨z, a1, a2⟩ := ih1 ⟨.all _ _, hp1.2, hh.tock, hg, rfl, hi.1, by show _ ≤ lenAt env st.line; omega⟩
    have z : Zips env st.zip st1.zip := z
    obtain ⟨f1, f2, f3, _⟩ := bump_facts o st1
    have key : st1.line = st.line ∧ st1.cleared = st.cleared ∧ st.gx < (bump o st1).gx := by
      by_cases hn : o.res = .nothing
      · obtain ⟨b1, b2, b3⟩ := a1 hn
        have b2 : st1.gx = st.gx := b2
        refine ⟨b1, b3, ?_⟩
        unfold bump
        rw [if_pos hn]
        show st.gx < st1.gx + 1
        omega
      · have hbump : bump o st1 = st1 := by unfold bump; rw [if_neg hn]
        rw [hbump]
        rcases a2 hn with ⟨b1, b2, b3, b4⟩ | ⟨b0, b1, b2⟩
        · exact ⟨b1, b4, b2⟩
        · exfalso
          have b1 : st.line < st1.line := b1
          exact hr (.inl ⟨b0, .inl (by omega)⟩)
    obtain ⟨k1, k2, k3⟩ := key
    have := hh.pos
    have := hh.mat
    obtain ⟨z2, c1, c2, c3⟩ := ih2 ⟨hp1, ⟨by rw [f2, f1, k1, k2]; exact hh.cleared, by rw [f1, k1]; exact hh.line, by omega, by rw [f1, k1]; exact hh.mat⟩, by
      rw [if_pos k1]; omega, by rw [if_pos k1, f1, k1, hp4]; omega, by rw [f1, k1]; exact hp4⟩
    rw [f1, k1] at c1 c2 c3
    rw [f2, k2] at c3
    rw [f3] at z2
    refine ⟨z.trans z2, c1, fun h => ⟨(c2 h).1, fun h' => ?_⟩, c3⟩
    have := (c2 h).2 h'
    omega
  | nil => intro hp; exact ⟨.refl _ _, fun _ => ⟨rfl, rfl, rfl⟩, fun h => absurd rfl h⟩
  | inhNone _ ih => intro hp; exact ih ⟨hp.1.tail, hp.2⟩
  | inhHit _ hne ih =>
    intro hp
    obtain ⟨z, _, a2⟩ := ih ⟨.all _ _, target_fromG hp.2.1 (fun _ => (hp.1 _ (List.mem_cons_self ..)).imp fun s h => ⟨_, h⟩), hp.2.2⟩
    exact ⟨z, fun h => absurd h hne, fun h => a2 h⟩
  | @inhMiss s virt ns levels low hi me st o st1 o' st' hb1 hn hb2 ih1 ih2 =>
    intro hp
    obtain ⟨hns, hlv, hh, h1, h2, h3, h4⟩ := hp
    obtain ⟨z, a1, _⟩ := ih1 ⟨.all _ _, target_fromG hlv (fun _ => (hns _ (List.mem_cons_self ..)).imp fun s h => ⟨_, h⟩), hh, h1, h2, h3, h4⟩
    obtain ⟨b1, b2, b3⟩ := a1 hn
    obtain ⟨z2, c⟩ := ih2 ⟨hns.tail, hlv, hh.move b1 b2 b3, by rw [b2]; exact h1, h2, h3, by rw [b1]; exact h4⟩
    rw [b1, b2, b3] at c
    exact ⟨z.trans z2, c⟩
  | @kwHit id ns levels low hi me st n r hk =>
    intro hp
    obtain ⟨hns, hlv, hh, h1, h2, h3, h4⟩ := hp
    have hl := str_len (env := env) hh.cleared
    obtain ⟨k1, k2⟩ := hf.kw _ _ _ _ _ _ _ hh.pos (by omega) (by omega) hk
    exact ⟨.refl _ _, fun h => by simp at h, fun _ => .inl ⟨rfl, by show st.gx < st.gx + n; omega, by show st.gx + n ≤ _; omega, rfl⟩⟩
  | @kwMiss id ns levels low hi me st o st' hk hb ih =>
    intro hp
    exact ih ⟨hp.1.tail, hp.2.1, hp.2.2.1.tock, hp.2.2.2⟩
  | @reHit start lowP regs ns levels low hi me st m hx he =>
    intro hp
    obtain ⟨hns, hlv, hh, h1, h2, h3, h4⟩ := hp
    obtain ⟨k1, k2, k3, k4⟩ := hf.rx _ _ _ (startQ_asked hh (by omega) h3 h4 ((hns _ (List.mem_cons_self ..)).imp fun s h => .inl ⟨lowP, regs, h⟩) lowP) hx
    rw [startQ_pos] at k1
    rw [startQ_len] at k3
    refine ⟨.refl _ _, fun h => by simp at h, fun _ => .inl ⟨rfl, by show st.gx < m.e; omega, ?_, rfl⟩⟩
    show m.e ≤ lenAt env st.line
    split at k3 <;> omega
  | @reZero start lowP regs ns levels low hi me st m o st' hx he hb ih =>
    intro hp
    exact ih ⟨hp.1.tail, hp.2.1, hp.2.2.1.tock.move rfl rfl rfl, hp.2.2.2⟩
  | reMiss _ _ ih => intro hp; exact ih ⟨hp.1.tail, hp.2.1, hp.2.2.1.tock, hp.2.2.2⟩
  | blNone _ _ ih => intro hp; exact ih ⟨hp.1.tail, hp.2⟩
  | blMiss _ _ _ ih => intro hp; exact ih ⟨hp.1.tail, hp.2.1, hp.2.2.1.tock, hp.2.2.2⟩
  | @blZero b s ns levels low hi me st m o st1 o' st' hs hx hb1 he hl hb ih1 ih2 =>
    intro hp
    obtain ⟨hns, hlv, hh, h1, h2, h3, h4⟩ := hp
    obtain ⟨s', hs'⟩ := hns _ (List.mem_cons_self ..)
    have hq := startQ_asked hh (by omega) h3 h4 (re := b.start) ⟨s', .inr ⟨b, hs', rfl⟩⟩ b.low
    obtain ⟨k1, k2, k3, k4⟩ := hf.rx _ _ _ hq hx
    have k4 : m.s = st.gx := k4 ⟨s', b, hs', rfl⟩ rfl
    have k3' : m.e ≤ lenAt env st.line := by rw [startQ_len] at k3; split at k3 <;> omega
    have hpos := hh.pos
    obtain ⟨z, a⟩ := block_post hlv hh h1 ⟨k4, k2⟩ ⟨s', hs'⟩ hx hq.1 (ih1 ⟨⟨by
      intro re t m' h'
      simp only [blockCtx, Option.some.injEq, Prod.mk.injEq] at h'
      obtain ⟨rfl, rfl, rfl⟩ := h'
      exact ⟨b, s', _, _, hs', rfl, hx, rfl, rfl, rfl, hq.1⟩, target_fromG hlv (by simp)⟩, fun _ => ⟨by show 0 ≤ m.e; omega, k3'⟩⟩)
    have e1 : (afterBlock env b (target s levels []).1 st st1 o.me).line = st.line := hl.symm
    have e2 : (afterBlock env b (target s levels []).1 st st1 o.me).gx = st.gx := by show o.me.e = _; omega
    have e3 : (afterBlock env b (target s levels []).1 st st1 o.me).cleared = st.cleared := by
      rcases a with a | a
      · exact a.2.1
      · omega
    obtain ⟨z2, c⟩ := ih2 ⟨hns.tail, hlv, hh.move e1 e2 e3, by rw [e2]; exact h1, h2, h3, by rw [e1]; exact h4⟩
    rw [e1, e2, e3] at c
    exact ⟨z.trans z2, c⟩
  | @blHit b s ns levels low hi me st m o st1 hs hx hb1 hne ih1 =>
    intro hp
    obtain ⟨hns, hlv, hh, h1, h2, h3, h4⟩ := hp
    obtain ⟨s', hs'⟩ := hns _ (List.mem_cons_self ..)
    have hq := startQ_asked hh (by omega) h3 h4 (re := b.start) ⟨s', .inr ⟨b, hs', rfl⟩⟩ b.low
    obtain ⟨k1, k2, k3, k4⟩ := hf.rx _ _ _ hq hx
    have k4 : m.s = st.gx := k4 ⟨s', b, hs', rfl⟩ rfl
    have k3' : m.e ≤ lenAt env st.line := by rw [startQ_len] at k3; split at k3 <;> omega
    have hpos := hh.pos
    obtain ⟨z, a⟩ := block_post hlv hh h1 ⟨k4, k2⟩ ⟨s', hs'⟩ hx hq.1 (ih1 ⟨⟨by
      intro re t m' h'
      simp only [blockCtx, Option.some.injEq, Prod.mk.injEq] at h'
      obtain ⟨rfl, rfl, rfl⟩ := h'
      exact ⟨b, s', _, _, hs', rfl, hx, rfl, rfl, rfl, hq.1⟩, target_fromG hlv (by simp)⟩, fun _ => ⟨by show 0 ≤ m.e; omega, k3'⟩⟩)
    refine ⟨z, fun h => by simp at h, fun _ => ?_⟩
    rcases a with ⟨a1, a2, a3, a4⟩ | ⟨a1, a2⟩
    · left
      refine ⟨a1, ?_, a4, a2⟩
      show st.gx < o.me.e
      have : o.me.e ≠ st.gx := fun h => hne ⟨by omega, a1.symm⟩
      omega
    · right
      exact ⟨rfl, a1, a2⟩

end Verif.TextParser
