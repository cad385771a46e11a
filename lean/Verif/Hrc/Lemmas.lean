import Verif.Hrc.Spec
import Verif.RegExp.Total
/-! Invariants of the re-entrant loader. -/
namespace Verif.Hrc

/-! ### schemes later on -/

theorem Link.Next.refl (l : Link) : l.Next l := .inl rfl

theorem Link.Next.trans {a b c : Link} (h1 : a.Next b) (h2 : b.Next c) : a.Next c := by
  rcases h1 with rfl | ⟨h1, h1'⟩
  · exact h2
  · rcases h2 with rfl | ⟨h2, _⟩
    · exact .inr ⟨h1, h1'⟩
    · simp [Link.pending, h1'] at h2

theorem SNode.Next.refl (n : SNode) : n.Next n := by
  cases n with
  | inherit l v => exact ⟨.refl _, List.forall₂_same.2 fun x _ => ⟨.refl _, .refl _⟩⟩
  | regexp n => exact rfl
  | block b => exact ⟨.refl _, rfl⟩
  | keywords n => exact rfl

theorem forall2_trans {α : Type} {R : α → α → Prop} (hR : ∀ a b c, R a b → R b c → R a c) {x y z : List α} (h1 : List.Forall₂ R x y)
    (h2 : List.Forall₂ R y z) : List.Forall₂ R x z := by
  induction h1 generalizing z with
  | nil => cases h2; exact .nil
  | cons h _ ih => cases h2 with | cons h' t => exact .cons (hR _ _ _ h h') (ih t)

theorem SNode.Next.trans {a b c : SNode} (h1 : a.Next b) (h2 : b.Next c) : a.Next c := by
  cases a <;> cases b <;> try exact h1.elim
  all_goals cases c <;> try exact h2.elim
  · refine ⟨h1.1.trans h2.1, forall2_trans ?_ h1.2 h2.2⟩
    exact fun a b c h g => ⟨h.1.trans g.1, h.2.trans g.2⟩
  · exact Eq.trans h2 h1
  · obtain ⟨a1, a2⟩ := h1
    obtain ⟨b1, b2⟩ := h2
    refine ⟨a1.trans b1, ?_⟩
    rw [b2, a2]
  · exact Eq.trans h2 h1

theorem Sch.Next.refl (s : Sch) : s.Next s := ⟨rfl, rfl, List.forall₂_same.2 fun _ _ => .refl _⟩

theorem Sch.Next.trans {a b c : Sch} (h1 : a.Next b) (h2 : b.Next c) : a.Next c :=
  ⟨h2.1.trans h1.1, h2.2.1.trans h1.2.1, forall2_trans (R := SNode.Next) (fun a b c (h : a.Next b) (g : b.Next c) => h.trans g) h1.2.2 h2.2.2⟩

/-! ### what may change -/

/-- What a piece of loading may change. `k`: the schemes there are stay as they are (links included); `o`: the type being loaded by the caller itself, if
any; `h`: the scheme being filled by the caller itself, if any; `b`: by how much the links to be resolved may grow. -/
structure Ext (W : World) (k : Bool) (o h : Option Name) (b : Nat) (L L' : Lib) : Prop where
  protos  : L'.protos = L.protos
  cur     : L'.cur = L.cur
  busy    : L'.busy = L.busy
  updating : L'.updating = L.updating
  started : ∀ t ∈ L.started, t ∈ L'.started
  done    : ∀ t ∈ L.done, t ∈ L'.done
  fresh   : ∀ t ∈ L'.started, t ∈ L.started ∨ t ∈ L'.done
  regs    : ∃ new, L'.regs = L.regs ++ new ∧ ∀ r ∈ new, owner r.name ∉ L.started ∨ some (owner r.name) = o
  imports : ∀ x ∈ L.started, some x ≠ o → L'.imports x = L.imports x
  ents    : ∃ new, L'.ents = L.ents ++ new
  names   : ∃ new, L'.schemes.map (·.name) = L.schemes.map (·.name) ++ new ∧ ∀ q ∈ new, owner q ∉ L.started ∨ some (owner q) = o
  old     : ∀ s ∈ L.schemes, ∃ s' ∈ L'.schemes, s'.name = s.name ∧ s'.type = s.type ∧ (some s.name ≠ h → s.Next s' ∧ (k = true → s' = s))
  rounds  : rounds W L' ≤ rounds W L + b

variable {W : World}

theorem Ext.refl (W : World) (k : Bool) (o h : Option Name) (b : Nat) (L : Lib) : Ext W k o h b L L :=
  ⟨rfl, rfl, rfl, rfl, fun _ h => h, fun _ h => h, fun _ h => .inl h, ⟨[], by simp, by simp⟩, fun _ _ _ => rfl, ⟨[], by simp⟩, ⟨[], by simp, by simp⟩,
    fun s hs => ⟨s, hs, rfl, rfl, fun _ => ⟨.refl _, fun _ => rfl⟩⟩, by omega⟩

theorem Ext.weaken {k : Bool} {o h : Option Name} {b c : Nat} {L L' : Lib} (e : Ext W k none none b L L') (hb : b ≤ c) : Ext W k o h c L L' := by
  obtain ⟨new, h1, h2⟩ := e.regs
  obtain ⟨nn, g1, g2⟩ := e.names
  refine ⟨e.protos, e.cur, e.busy, e.updating, e.started, e.done, e.fresh, ⟨new, h1, ?_⟩, ?_, e.ents, ⟨nn, g1, ?_⟩, ?_, by have := e.rounds; omega⟩
  · intro r hr
    rcases h2 r hr with h | h
    · left; exact h
    · cases h
  · intro x hx _; exact e.imports x hx (by simp)
  · intro r hr
    rcases g2 r hr with h | h
    · left; exact h
    · cases h
  · intro s hs
    obtain ⟨s', a, b, c, d⟩ := e.old s hs
    exact ⟨s', a, b, c, fun _ => d (by simp)⟩

theorem Ext.loose {k : Bool} {o h : Option Name} {b : Nat} {L L' : Lib} (e : Ext W k o h b L L') : Ext W false o h b L L' :=
  ⟨e.protos, e.cur, e.busy, e.updating, e.started, e.done, e.fresh, e.regs, e.imports, e.ents, e.names, fun s hs => by
    obtain ⟨s', a, b, c, d⟩ := e.old s hs
    exact ⟨s', a, b, c, fun x => ⟨(d x).1, by simp⟩⟩, e.rounds⟩

theorem Ext.trans {k : Bool} {o h : Option Name} {b c d : Nat} {A B C : Lib} (h1 : Ext W k o h b A B) (h2 : Ext W k o h c B C) (hd : b + c ≤ d) :
    Ext W k o h d A C := by
  obtain ⟨n1, a1, a2⟩ := h1.regs
  obtain ⟨n2, b1, b2⟩ := h2.regs
  obtain ⟨e1, c1⟩ := h1.ents
  obtain ⟨e2, c2⟩ := h2.ents
  obtain ⟨m1, f1, f2⟩ := h1.names
  obtain ⟨m2, g1, g2⟩ := h2.names
  refine ⟨h2.protos.trans h1.protos, h2.cur.trans h1.cur, h2.busy.trans h1.busy, h2.updating.trans h1.updating,
    fun t ht => h2.started t (h1.started t ht), fun t ht => h2.done t (h1.done t ht), ?_, ⟨n1 ++ n2, by rw [b1, a1, List.append_assoc], ?_⟩, ?_,
    ⟨e1 ++ e2, by rw [c2, c1, List.append_assoc]⟩, ⟨m1 ++ m2, by rw [g1, f1, List.append_assoc], ?_⟩, ?_, ?_⟩
  · intro t ht
    rcases h2.fresh t ht with h | h
    · exact (h1.fresh t h).imp id (h2.done t)
    · exact .inr h
  · intro r hr
    rcases List.mem_append.1 hr with hr | hr
    · exact a2 r hr
    · rcases b2 r hr with h | h
      · left; exact fun hh => h (h1.started _ hh)
      · right; exact h
  · intro x hx hne
    rw [h2.imports x (h1.started x hx) hne, h1.imports x hx hne]
  · intro r hr
    rcases List.mem_append.1 hr with hr | hr
    · exact f2 r hr
    · rcases g2 r hr with h | h
      · left; exact fun hh => h (h1.started _ hh)
      · right; exact h
  · intro s hs
    obtain ⟨s1, p1, p2, p3, p4⟩ := h1.old s hs
    obtain ⟨s2, q1, q2, q3, q4⟩ := h2.old s1 p1
    refine ⟨s2, q1, q2.trans p2, q3.trans p3, fun hn => ?_⟩
    obtain ⟨x1, x2⟩ := p4 hn
    obtain ⟨y1, y2⟩ := q4 (by rw [p2]; exact hn)
    exact ⟨x1.trans y1, fun hk => (y2 hk).trans (x2 hk)⟩
  · have := h1.rounds
    have := h2.rounds
    omega

theorem Ext.regsLe {k : Bool} {o h : Option Name} {b : Nat} {L L' : Lib} (e : Ext W k o h b L L') : L.regs.length ≤ L'.regs.length := by
  obtain ⟨new, h, _⟩ := e.regs
  rw [h]; simp

theorem Ext.schemes {k : Bool} {o h : Option Name} {b : Nat} {L L' : Lib} (e : Ext W k o h b L L') {q : Name} (hq : ∃ s ∈ L.schemes, s.name = q) :
    ∃ s ∈ L'.schemes, s.name = q := by
  obtain ⟨s, hs, rfl⟩ := hq
  obtain ⟨s', h1, h2, _⟩ := e.old s hs
  exact ⟨s', h1, h2⟩

/-- a step taken while a source is being read changes the schemes only together with `structureChanged` -/
def Still (L L' : Lib) : Prop := L.updating = true → L'.changed = false → L.changed = false ∧ L'.schemes = L.schemes

/-- one step: the resolution of a name -/
structure Step (W : World) (L L' : Lib) : Prop where
  ext : Ext W L.updating none none 0 L L'
  still : Still L L'

theorem Step.refl (W : World) (L : Lib) : Step W L L := ⟨.refl .., fun _ h => ⟨h, rfl⟩⟩

theorem Step.trans {A B C : Lib} (h1 : Step W A B) (h2 : Step W B C) : Step W A C := by
  have e2 := h2.ext
  rw [h1.ext.updating] at e2
  refine ⟨h1.ext.trans e2 (by omega), fun hu hc => ?_⟩
  obtain ⟨a, b⟩ := h2.still (by rw [h1.ext.updating]; exact hu) hc
  obtain ⟨c, d⟩ := h1.still hu a
  exact ⟨c, b.trans d⟩

/-! ### fine nodes stay fine -/

/-- more regions and schemes -/
structure More (L L' : Lib) : Prop where
  regs : L.regs.length ≤ L'.regs.length
  schemes : ∀ q, (∃ s ∈ L.schemes, s.name = q) → ∃ s ∈ L'.schemes, s.name = q

theorem Ext.more {k : Bool} {o h : Option Name} {b : Nat} {L L' : Lib} (e : Ext W k o h b L L') : More L L' := ⟨e.regsLe, fun _ => e.schemes⟩
theorem Step.more {L L' : Lib} (e : Step W L L') : More L L' := e.ext.more
theorem More.trans {A B C : Lib} (h1 : More A B) (h2 : More B C) : More A C := ⟨Nat.le_trans h1.1 h2.1, fun q h => h2.2 q (h1.2 q h)⟩

theorem RegionOk.more {L L' : Lib} (m : More L L') {r : Option Nat} (h : RegionOk L r) : RegionOk L' r :=
  fun i hi => Nat.lt_of_lt_of_le (h i hi) m.regs

theorem RegionOk.none (L : Lib) : RegionOk L none := fun _ h => by cases h

theorem SlotsOk.more {L L' : Lib} (m : More L L') {r : List (Option Nat)} (h : SlotsOk L r) : SlotsOk L' r :=
  ⟨h.1, fun x hx => (h.2 x hx).more m⟩

theorem SNode.Fine.more {L L' : Lib} (m : More L L') {nd : SNode} (h : nd.Fine W L) : nd.Fine W L' := by
  obtain ⟨h1, h2⟩ := h
  refine ⟨fun l hl q hq => m.schemes q (h1 l hl q hq), ?_⟩
  cases nd with
  | inherit l v => trivial
  | regexp n => exact ⟨h2.1, h2.2.1.more m, h2.2.2.1.more m, h2.2.2.2.more m⟩
  | block n =>
    obtain ⟨a, b, c, d, e, f⟩ := h2
    exact ⟨a, b.more m, c.more m, d.more m, e.more m, f.more m⟩
  | keywords n =>
    obtain ⟨kws, a, b⟩ := h2
    exact ⟨kws, fun k hk => ⟨(a k hk).1, (a k hk).2.1, (a k hk).2.2.more m⟩, b⟩

/-! ### the invariant -/

/-- no link is left to be resolved -/
def Resolved (L : Lib) : Prop := ∀ s ∈ L.schemes, ∀ nd ∈ s.nodes, ∀ l ∈ nd.links, l.pending = false

structure Inv (W : World) (L : Lib) : Prop where
  reg   : Registry L
  flags : Flags L
  schemes : Schemes W L
  done  : ∀ t ∈ L.done, t ∈ L.started
  quiet : L.updating = false → (∀ t ∈ L.started, t ∈ L.done) ∧ Resolved L

/-- the fields the invariant does not look at -/
theorem Inv.congr {L L' : Lib} (h : Inv W L) (h1 : L'.protos = L.protos) (h2 : L'.started = L.started) (h3 : L'.imports = L.imports) (h4 : L'.regs = L.regs)
    (h5 : L'.schemes = L.schemes) (h6 : L'.cur = L.cur) (h7 : L'.done = L.done) (h8 : L'.updating = L.updating) : Inv W L' := by
  have hm : More L L' := ⟨by rw [h4]; exact Nat.le_refl _, fun q hq => by rw [h5]; exact hq⟩
  refine ⟨⟨?_, ?_, ?_, ?_⟩, ⟨?_, ?_, ?_, ?_⟩, ⟨?_, ?_, ?_⟩, ?_, ?_⟩
  · rw [h4]; exact h.reg.unique
  · rw [h4]; exact h.reg.parents
  · rw [h4, h2]; exact h.reg.owners
  · rw [h4]; exact h.reg.colons
  · rw [h1, h2]; exact h.flags.started
  · rw [h6, h2]; exact h.flags.cur
  · rw [h1, h3]; exact h.flags.imports
  · rw [h1]; exact h.flags.plain
  · rw [h5]; exact h.schemes.unique
  · rw [h5, h2]; exact h.schemes.owners
  · rw [h5]; exact fun s hs nd hn => (h.schemes.nodes s hs nd hn).more hm
  · rw [h7, h2]; exact h.done
  · intro hu
    rw [h8] at hu
    obtain ⟨a, b⟩ := h.quiet hu
    refine ⟨by rw [h2, h7]; exact a, ?_⟩
    unfold Resolved
    rw [h5]; exact b

/-- number of types whose source is not being read -/
def measure (L : Lib) : Nat := (L.protos.filter fun t => decide (t ∉ L.busy)).length

theorem Ext.measure {k : Bool} {o h : Option Name} {b : Nat} {L L' : Lib} (e : Ext W k o h b L L') : measure L' = measure L := by
  unfold Hrc.measure; rw [e.protos, e.busy]

theorem Step.measure {L L' : Lib} (e : Step W L L') : Hrc.measure L' = Hrc.measure L := e.ext.measure

/-- `loadF` works for libraries with less than `n` unread sources -/
def Good (W : World) (n : Nat) (loadF : Lib → Name → Option Lib) : Prop :=
  ∀ L t, Inv W L → t ∈ L.protos → measure L < n → ∃ L', loadF L t = some L' ∧ Inv W L' ∧ Step W L L'

/-! ### names -/

theorem owner_of_own {t n q : Name} (ht : 58 ∉ t) (h : qualifyOwn t n = some q) : owner q = t := by
  unfold qualifyOwn at h
  split at h
  · rename_i k hk
    split at h
    · rename_i htk
      cases h
      unfold owner
      have hk2 := (List.idxOf?_eq_some_iff).1 hk
      obtain ⟨hlt, hat, hbefore⟩ := hk2
      have hsplit : n = n.take k ++ n[k] :: n.drop (k + 1) := by
        rw [← List.drop_eq_getElem_cons hlt, List.take_append_drop]
      rw [hsplit, htk]
      rw [List.takeWhile_append_of_pos (by
        intro a ha
        simp only [ne_eq, decide_not, Bool.not_eq_eq_eq_not, Bool.not_true, decide_eq_false_iff_not]
        intro e; subst e; exact ht ha)]
      simp [hat]
    · cases h
  · cases h
    unfold owner
    rw [List.takeWhile_append_of_pos (by
      intro a ha
      simp only [ne_eq, decide_not, Bool.not_eq_eq_eq_not, Bool.not_true, decide_eq_false_iff_not]
      intro e; subst e; exact ht ha)]
    simp

theorem colon_of_own {t n q : Name} (h : qualifyOwn t n = some q) : 58 ∈ q := by
  unfold qualifyOwn at h
  split at h
  · rename_i k hk
    split at h
    · cases h
      obtain ⟨hlt, hat, _⟩ := (List.idxOf?_eq_some_iff).1 hk
      exact hat ▸ List.getElem_mem hlt
    · cases h
  · cases h; simp

/-! ### pieces preserve the invariant -/

variable {n : Nat} {loadF : Lib → Name → Option Lib}

theorem ensure_good (hg : Good W n loadF) {L : Lib} (hi : Inv W L) (hm : measure L < n) {t : Name} (ht : t ∈ L.protos) :
    ∃ L', (if t ∈ L.started then some L else loadF L t) = some L' ∧ Inv W L' ∧ Step W L L' := by
  split
  · exact ⟨L, rfl, hi, Step.refl _ _⟩
  · exact hg L t hi ht hm

theorem tryTypes_good (hg : Good W n loadF) (nm : Name) (k : Kind) (ts : List Name) : ∀ L : Lib, Inv W L → measure L < n →
    (∀ t ∈ ts, t ∈ L.protos) →
    ∃ r L', tryTypes loadF nm k ts L = some (r, L') ∧ Inv W L' ∧ Step W L L' ∧ (∀ q, r = some q → L'.has k q = true) := by
  induction ts with
  | nil => intro L hi _ _; exact ⟨none, L, rfl, hi, Step.refl _ _, by simp⟩
  | cons t r ih =>
    intro L hi hm hts
    have ht : t ∈ L.protos := hts t (by simp)
    simp only [tryTypes]
    rw [if_neg (fun h => h ht)]
    obtain ⟨L1, h1, h2, h3⟩ := ensure_good hg hi hm ht
    simp only [h1]
    by_cases hh : L1.has k (t ++ 58 :: nm) = true
    · rw [if_pos hh]
      exact ⟨_, L1, rfl, h2, h3, by intro q hq; cases hq; exact hh⟩
    · rw [if_neg hh]
      obtain ⟨r', L', g1, g2, g3, g4⟩ := ih L1 h2 (by rw [h3.measure]; exact hm) (by
        intro x hx; rw [h3.ext.protos]; exact hts x (by simp [hx]))
      exact ⟨r', L', g1, g2, h3.trans g3, g4⟩

theorem qualifyForeign_good (hg : Good W n loadF) (nm : Name) (k : Kind) (L : Lib) (hi : Inv W L) (hm : measure L < n) :
    ∃ r L', qualifyForeign loadF nm k L = some (r, L') ∧ Inv W L' ∧ Step W L L' ∧ (∀ q, r = some q → L'.has k q = true) := by
  unfold qualifyForeign
  split
  · rename_i c hc
    by_cases hp : nm.take c ∈ L.protos
    · rw [if_neg (fun h => h hp)]
      obtain ⟨L1, h1, h2, h3⟩ := ensure_good hg hi hm hp
      simp only [h1]
      split
      · refine ⟨_, L1, rfl, h2, h3, ?_⟩
        intro q hq
        split at hq
        · cases hq; assumption
        · cases hq
      · exact ⟨none, L1, rfl, h2, h3, by simp⟩
    · rw [if_pos hp]
      exact ⟨none, L, rfl, hi, Step.refl _ _, by simp⟩
  · split
    · exact ⟨none, L, rfl, hi, Step.refl _ _, by simp⟩
    · rename_i t ht
      apply tryTypes_good hg nm k _ L hi hm
      intro x hx
      rcases List.mem_cons.1 hx with rfl | hx
      · exact hi.flags.started _ (hi.flags.cur _ ht)
      · exact hi.flags.imports t x hx

theorem findReg_lt {L : Lib} {q : Name} {i : Nat} (h : L.findReg q = some i) :
    ∃ r, L.regs[i]? = some r ∧ r.name = q := by
  unfold Lib.findReg at h
  obtain ⟨hlt, hp, _⟩ := List.findIdx?_eq_some_iff_getElem.1 h
  exact ⟨L.regs[i], by simp [hlt], by simpa using hp⟩

theorem getNCRegion_good (hg : Good W n loadF) (nm : Name) (L : Lib) (hi : Inv W L) (hm : measure L < n) :
    ∃ r L', getNCRegion loadF nm L = some (r, L') ∧ Inv W L' ∧ Step W L L' ∧ (∀ i, r = some i → i < L'.regs.length) := by
  unfold getNCRegion
  split
  · exact ⟨none, L, rfl, hi, Step.refl _ _, by simp⟩
  · obtain ⟨r, L1, h1, h2, h3, _⟩ := qualifyForeign_good hg nm .region L hi hm
    rw [h1]
    cases r with
    | none => exact ⟨none, L1, rfl, h2, h3, by simp⟩
    | some q =>
      refine ⟨_, L1, rfl, h2, h3, ?_⟩
      intro i hi
      cases hf : L1.findReg q with
      | none => rw [hf] at hi; cases hi
      | some j =>
        rw [hf] at hi
        simp only [Option.bind_some] at hi
        split at hi
        · cases hi
        · cases hi
          obtain ⟨r, hr, _⟩ := findReg_lt hf
          exact (List.getElem?_eq_some_iff.1 hr).1

theorem resolveEnt_good (hg : Good W n loadF) (nm : Name) (L : Lib) (hi : Inv W L) (hm : measure L < n) :
    ∃ r L', resolveEnt loadF nm L = some (r, L') ∧ Inv W L' ∧ Step W L L' := by
  unfold resolveEnt
  obtain ⟨r, L1, h1, h2, h3, _⟩ := qualifyForeign_good hg nm .entity L hi hm
  rw [h1]
  cases r with
  | none => exact ⟨none, L1, rfl, h2, h3⟩
  | some q => exact ⟨_, L1, rfl, h2, h3⟩

theorem idxOf?_lt {l : List Nat} {x k : Nat} (h : l.idxOf? x = some k) : k < l.length :=
  (List.idxOf?_eq_some_iff.1 h).1

theorem expandFrom_good (hg : Good W n loadF) (fuel : Nat) : ∀ (prev : Option Nat) (out pend rest : Name) (L : Lib), Inv W L →
    measure L < n → rest.length < fuel →
    ∃ r L', expandFrom (resolveEnt loadF) fuel prev out pend rest L = some (r, L') ∧ Inv W L' ∧ Step W L L' := by
  induction fuel with
  | zero => intro _ _ _ _ _ _ _ h; omega
  | succ fuel ih =>
    intro prev out pend rest L hi hm hl
    simp only [expandFrom]
    split
    · exact ⟨_, L, rfl, hi, Step.refl _ _⟩
    · rename_i k hk
      have hlt := idxOf?_lt hk
      have hdrop : (rest.drop (k + 1)).length < fuel := by simp; omega
      generalize hpv : (if k = 0 then prev else (rest.take k).getLast?) = prev'
      by_cases hesc : prev' = some 92
      · rw [if_pos hesc]
        exact ih _ _ _ _ L hi hm hdrop
      · rw [if_neg hesc]
        split
        · exact ⟨_, L, rfl, hi, Step.refl _ _⟩
        · rename_i e he
          obtain ⟨r, L1, h1, h2, h3⟩ := resolveEnt_good hg ((rest.drop (k + 1)).take (e - 1)) L hi hm
          rw [h1]
          cases r with
          | none =>
            obtain ⟨r', L', g1, g2, g3⟩ := ih (some 37) out (pend ++ rest.take k ++ [37]) (rest.drop (k + 1)) L1 h2
              (by rw [h3.measure]; exact hm) hdrop
            exact ⟨r', L', g1, g2, h3.trans g3⟩
          | some v =>
            obtain ⟨r', L', g1, g2, g3⟩ := ih (some 59) (out ++ pend ++ rest.take k ++ v) [] ((rest.drop (k + 1)).drop e) L1 h2
              (by rw [h3.measure]; exact hm) (by simp; omega)
            exact ⟨r', L', g1, g2, h3.trans g3⟩

theorem useEntities_good (hg : Good W n loadF) (v : Name) (L : Lib) (hi : Inv W L) (hm : measure L < n) :
    ∃ r L', useEntities (resolveEnt loadF) v L = some (r, L') ∧ Inv W L' ∧ Step W L L' :=
  expandFrom_good hg _ _ _ _ _ L hi hm (by omega)

/-! ### steps of the body loader -/

theorem run_bind {α β : Type} {m : M α} {f : α → M β} {L L1 : Lib} {a : α} (h : m L = some (a, L1)) : (m >>= f) L = f a L1 := by
  show (m L).bind _ = _
  rw [h]; rfl

/-- `m` succeeds and what it gives is `Q` -/
def Does (W : World) (n : Nat) {α : Type} (m : M α) (Q : α → Lib → Prop) : Prop :=
  ∀ L, Inv W L → measure L < n → ∃ a L', m L = some (a, L') ∧ Inv W L' ∧ Step W L L' ∧ Q a L'

theorem does_pure {α : Type} (a : α) {Q : α → Lib → Prop} (h : ∀ L, Inv W L → Q a L) : Does W n (pure a : M α) Q :=
  fun L hi _ => ⟨a, L, rfl, hi, Step.refl _ _, h L hi⟩

theorem each_does {α β : Type} {f : α → M β} {Q : β → Lib → Prop} (hQ : ∀ b L L', More L L' → Q b L → Q b L') (l : List α)
    (hf : ∀ a ∈ l, Does W n (f a) Q) : Does W n (each f l) fun bs L => bs.length = l.length ∧ ∀ b ∈ bs, Q b L := by
  induction l with
  | nil => exact does_pure _ fun L _ => ⟨rfl, by simp⟩
  | cons a r ih =>
    intro L hi hm
    obtain ⟨b, L1, h1, h2, h3, h4⟩ := hf a (by simp) L hi hm
    obtain ⟨bs, L2, g1, g2, g3, g4, g5⟩ := ih (fun a ha => hf a (by simp [ha])) L1 h2 (by rw [h3.measure]; exact hm)
    refine ⟨b :: bs, L2, ?_, g2, h3.trans g3, by simp [g4], ?_⟩
    · unfold each
      rw [run_bind h1, run_bind g1]; rfl
    · intro x hx
      rcases List.mem_cons.1 hx with rfl | hx
      · exact hQ _ _ _ g3.more h4
      · exact g5 x hx

theorem nameRegion_does (hg : Good W n loadF) (nm : Name) : Does W n (nameRegion loadF nm) fun r L => RegionOk L r :=
  fun L hi hm => getNCRegion_good hg nm L hi hm

theorem attrRegion_does (hg : Good W n loadF) (el : Elem) (tag : Name) : Does W n (attrRegion loadF el tag) fun r L => RegionOk L r := by
  unfold attrRegion
  split
  · exact nameRegion_does hg _
  · exact does_pure _ fun L _ => .none L

theorem namedRegions_does (hg : Good W n loadF) (names : List Name) : Does W n (namedRegions loadF names) fun r L => SlotsOk L r := by
  unfold namedRegions
  refine each_does (Q := fun r L => RegionOk L r) (fun b L L' m h => h.more m) _ fun i _ => ?_
  split
  · exact nameRegion_does hg _
  · exact does_pure _ fun L _ => .none L

theorem slotRegions_does (hg : Good W n loadF) (el : Elem) : Does W n (slotRegions loadF el) fun r L => SlotsOk L r :=
  each_does (Q := fun r L => RegionOk L r) (fun b L L' m h => h.more m) _ fun _ _ => attrRegion_does hg _ _

theorem pairRegions_does (hg : Good W n loadF) (el : Elem) :
    Does W n (pairRegions loadF el) fun r L => SlotsOk L (r.map (·.1)) ∧ SlotsOk L (r.map (·.2)) := by
  intro L hi hm
  have h : Does W n (pairRegions loadF el) fun bs L => bs.length = (List.range SLOTS).length ∧ ∀ b ∈ bs, RegionOk L b.1 ∧ RegionOk L b.2 := by
    unfold pairRegions
    refine each_does (Q := fun (r : Option Nat × Option Nat) (L : Lib) => RegionOk L r.1 ∧ RegionOk L r.2) (fun b L L' m h => ⟨h.1.more m, h.2.more m⟩) _ fun i _ => ?_
    intro L hi hm
    obtain ⟨a, L1, h1, h2, h3, h4⟩ := attrRegion_does hg el (lit "region0" ++ [hexDigit i]) L hi hm
    obtain ⟨b, L2, g1, g2, g3, g4⟩ := attrRegion_does hg el (lit "region1" ++ [hexDigit i]) L1 h2 (by rw [h3.measure]; exact hm)
    rw [run_bind h1, run_bind g1]
    exact ⟨(a, b), L2, rfl, g2, h3.trans g3, h4.more g3.more, g4⟩
  obtain ⟨a, L1, h1, h2, h3, h4, h5⟩ := h L hi hm
  refine ⟨a, L1, h1, h2, h3, ⟨by simpa [SLOTS] using h4, ?_⟩, ⟨by simpa [SLOTS] using h4, ?_⟩⟩
  · intro r hr
    obtain ⟨x, hx, rfl⟩ := List.mem_map.1 hr
    exact (h5 x hx).1
  · intro r hr
    obtain ⟨x, hx, rfl⟩ := List.mem_map.1 hr
    exact (h5 x hx).2

theorem expandText_does (hg : Good W n loadF) (v : Name) : Does W n (expandText loadF v) fun _ _ => True := by
  intro L hi hm
  obtain ⟨a, L1, h1, h2, h3⟩ := useEntities_good hg v L hi hm
  exact ⟨a, L1, h1, h2, h3, trivial⟩

theorem has_scheme {L : Lib} {q : Name} : L.has .scheme q = true ↔ ∃ s ∈ L.schemes, s.name = q := by
  simp [Lib.has]

theorem qualify_does (hg : Good W n loadF) (nm : Name) (k : Kind) : Does W n (qualify loadF nm k) fun r L => ∀ q, r = some q → L.has k q = true :=
  fun L hi hm => qualifyForeign_good hg nm k L hi hm

/-- the number of links a node brings is bounded by the size of its element -/
def NodeOk (W : World) (el : Elem) (r : Option SNode) (L : Lib) : Prop :=
  ∀ nd, r = some nd → nd.Fine W L ∧ nd.links.length ≤ 1 + 2 * el.kids.length

theorem NodeOk.none {el : Elem} {L : Lib} : NodeOk W el none L := fun _ h => by cases h

theorem virtual_links (l : List Elem) : ((l.filterMap virtualOf).flatMap VEnt.links).length ≤ 2 * l.length ∧
    ∀ x ∈ (l.filterMap virtualOf).flatMap VEnt.links, x.scheme = none := by
  induction l with
  | nil => simp
  | cons a r ih =>
    rw [List.filterMap_cons]
    cases h : virtualOf a with
    | none =>
      dsimp only
      exact ⟨by simp only [List.length_cons]; omega, ih.2⟩
    | some v =>
      dsimp only
      rw [List.flatMap_cons]
      refine ⟨by simp only [List.length_append, List.length_cons, VEnt.links, List.length_nil]; omega, ?_⟩
      intro x hx
      rcases List.mem_append.1 hx with hx | hx
      · have : v.virt.scheme = none ∧ v.subst.scheme = none := by
          unfold virtualOf at h
          split at h
          · split at h
            · cases h
            · cases h; exact ⟨rfl, rfl⟩
          · cases h
        simp only [VEnt.links, List.mem_cons, List.not_mem_nil, or_false] at hx
        rcases hx with rfl | rfl
        · exact this.1
        · exact this.2
      · exact ih.2 x hx

theorem inheritNode_does (hg : Good W n loadF) (el : Elem) : Does W n (inheritNode loadF el) (NodeOk W el) := by
  unfold inheritNode
  split
  · exact does_pure _ fun _ _ => .none
  · intro L hi hm
    obtain ⟨q, L1, h1, h2, h3, h4⟩ := qualify_does hg (el.attr (lit "scheme")) .scheme L hi hm
    rw [run_bind h1]
    refine ⟨_, L1, rfl, h2, h3, ?_⟩
    intro nd hnd
    cases hnd
    obtain ⟨v1, v2⟩ := virtual_links el.kids
    refine ⟨⟨?_, trivial⟩, by simp only [SNode.links, List.length_cons]; omega⟩
    intro l hl x hx
    rcases List.mem_cons.1 hl with rfl | hl
    · cases q with
      | none => cases hx
      | some q => cases hx; exact has_scheme.1 (h4 _ rfl)
    · rw [v2 l hl] at hx; cases hx

theorem compile_some {x : RegExp.Ctx} {t : Name} {e : RegExp.Expr} (h : compile x t = some e) : RegExp.setRE x t = some (.ok e) := by
  unfold compile at h
  split at h
  · cases h; assumption
  · cases h

theorem withFirst_ok {L : Lib} {r : Option Nat} {rs : List (Option Nat)} (h : RegionOk L r) (hs : SlotsOk L rs) : SlotsOk L (withFirst r rs) := by
  unfold withFirst
  split
  · refine ⟨by simp only [List.length_cons, List.length_tail, hs.1], ?_⟩
    intro x hx
    rcases List.mem_cons.1 hx with rfl | hx
    · exact h
    · exact hs.2 x (List.mem_of_mem_tail hx)
  · exact hs

theorem regexpNode_does (hg : Good W n loadF) (el : Elem) : Does W n (regexpNode W loadF el) (NodeOk W el) := by
  unfold regexpNode
  split
  · exact does_pure _ fun _ _ => .none
  · intro L hi hm
    obtain ⟨t, L1, h1, h2, h3, _⟩ := expandText_does hg (matchText el) L hi hm
    rw [run_bind h1]
    cases hc : compile W.ctx t with
    | none => exact ⟨none, L1, rfl, h2, h3, .none⟩
    | some e =>
      dsimp only
      have m1 := h3.measure
      obtain ⟨r, L2, i1, i2, i3, i4⟩ := attrRegion_does hg el (lit "region") L1 h2 (by omega)
      have m2 := i3.measure
      obtain ⟨rs, L3, j1, j2, j3, j4⟩ := slotRegions_does hg el L2 i2 (by omega)
      have m3 := j3.measure
      obtain ⟨rn, L4, k1, k2, k3, k4⟩ := namedRegions_does hg (bracketNames W.ctx t) L3 j2 (by omega)
      rw [run_bind i1, run_bind j1, run_bind k1]
      refine ⟨_, L4, rfl, k2, h3.trans (i3.trans (j3.trans k3)), ?_⟩
      intro nd hnd
      cases hnd
      have hr := i4.more (j3.more.trans k3.more)
      exact ⟨⟨by simp [SNode.links], ⟨t, compile_some hc⟩, hr, withFirst_ok hr (j4.more k3.more), k4⟩, by simp [SNode.links]⟩

theorem kidRegions_does (hg : Good W n loadF) (kid : Option Elem) {r : Option Nat} {rs : List (Option Nat)} (L : Lib) (hi : Inv W L) (hm : measure L < n)
    (hr : RegionOk L r) (hs : SlotsOk L rs) : ∃ a L', kidRegions loadF kid r rs L = some (a, L') ∧ Inv W L' ∧ Step W L L' ∧ RegionOk L' a.1 ∧ SlotsOk L' a.2 := by
  unfold kidRegions
  cases kid with
  | none => exact ⟨_, L, rfl, hi, Step.refl _ _, hr, hs⟩
  | some k =>
    dsimp only
    have h : ∃ a L', kidRegion loadF k r L = some (a, L') ∧ Inv W L' ∧ Step W L L' ∧ RegionOk L' a := by
      unfold kidRegion
      split
      · exact attrRegion_does hg k (lit "region") L hi hm
      · exact ⟨r, L, rfl, hi, Step.refl _ _, hr⟩
    obtain ⟨a, L1, h1, h2, h3, h4⟩ := h
    have m1 := h3.measure
    obtain ⟨as, L2, g1, g2, g3, g4⟩ := slotRegions_does hg k L1 h2 (by omega)
    rw [run_bind h1, run_bind g1]
    exact ⟨_, L2, rfl, g2, h3.trans g3, h4.more g3.more, g4⟩

theorem blockRegions_does (hg : Good W n loadF) (el : Elem) (names namesE : List Name) : Does W n (blockRegions loadF el names namesE) fun a L =>
    RegionOk L a.1 ∧ SlotsOk L a.2.1 ∧ SlotsOk L a.2.2.1 ∧ SlotsOk L a.2.2.2.1 ∧ SlotsOk L a.2.2.2.2 := by
  intro L hi hm
  unfold blockRegions
  obtain ⟨r, L1, h1, h2, h3, h4⟩ := attrRegion_does hg el (lit "region") L hi hm
  have m1 := h3.measure
  obtain ⟨ps, L2, i1, i2, i3, i4, i5⟩ := pairRegions_does hg el L1 h2 (by omega)
  have m2 := i3.measure
  obtain ⟨⟨r1, rs⟩, L3, j1, j2, j3, j4, j5⟩ := kidRegions_does hg (blockKid el (lit "start")) L2 i2 (by omega) (h4.more i3.more) i4
  have m3 := j3.measure
  obtain ⟨rn, L4, k1, k2, k3, k4⟩ := namedRegions_does hg names L3 j2 (by omega)
  have m4 := k3.measure
  obtain ⟨⟨r2, re⟩, L5, l1, l2, l3, l4, l5⟩ := kidRegions_does hg (blockKid el (lit "end")) L4 k2 (by omega) (j4.more k3.more) (i5.more (j3.more.trans k3.more))
  have m5 := l3.measure
  obtain ⟨rn', L6, o1, o2, o3, o4⟩ := namedRegions_does hg namesE L5 l2 (by omega)
  rw [run_bind h1, run_bind i1, run_bind j1]
  dsimp only
  rw [run_bind k1, run_bind l1]
  dsimp only
  rw [run_bind o1]
  exact ⟨_, L6, rfl, o2, h3.trans (i3.trans (j3.trans (k3.trans (l3.trans o3)))), l4.more o3.more, j5.more (k3.more.trans (l3.more.trans o3.more)),
    l5.more o3.more, k4.more (l3.more.trans o3.more), o4⟩

theorem blockNode_does (hg : Good W n loadF) (el : Elem) : Does W n (blockNode W loadF el) (NodeOk W el) := by
  unfold blockNode
  split
  · exact does_pure _ fun _ _ => .none
  · intro L hi hm
    obtain ⟨t, L1, h1, h2, h3, _⟩ := expandText_does hg (blockText el (lit "start")) L hi hm
    rw [run_bind h1]
    cases hc : compile W.ctx t with
    | none => exact ⟨none, L1, rfl, h2, h3, .none⟩
    | some e =>
      dsimp only
      have m1 := h3.measure
      obtain ⟨u, L2, i1, i2, i3, _⟩ := expandText_does hg (blockText el (lit "end")) L1 h2 (by omega)
      rw [run_bind i1]
      have m2 := i3.measure
      cases hc' : compile { W.ctx with back := some (bracketNames W.ctx t) } u with
      | none => exact ⟨none, L2, rfl, i2, h3.trans i3, .none⟩
      | some e' =>
        dsimp only
        obtain ⟨⟨r, rs, re, rn, rn'⟩, L3, j1, j2, j3, j4⟩ := blockRegions_does hg el (bracketNames W.ctx t)
          (bracketNames { W.ctx with back := some (bracketNames W.ctx t) } u) L2 i2 (by omega)
        rw [run_bind j1]
        refine ⟨_, L3, rfl, j2, h3.trans (i3.trans j3), ?_⟩
        intro nd hnd
        cases hnd
        refine ⟨⟨?_, ⟨t, u, compile_some hc, compile_some hc'⟩, j4⟩, by simp [SNode.links]⟩
        intro l hl q hq
        simp only [SNode.links, List.mem_cons, List.not_mem_nil, or_false] at hl
        subst hl
        cases hq

/-- the keywords that an element brings are as many as were counted -/
theorem addKeywords_does (hg : Good W n loadF) (mc : Bool) (region : Option Nat) (num : Nat) : ∀ (l : List Elem) (kws : List Keywords.KW) (L : Lib), Inv W L → measure L < n →
    RegionOk L region → (∀ k ∈ kws, k.word ≠ [] ∧ k.shorter = none ∧ RegionOk L k.region) →
    kws.length + (l.filter fun k => isWord k && decide (k.attr (lit "name") ≠ [])).length ≤ num →
    ∃ kws' L', addKeywords W loadF mc region l (filled W.ctx mc num kws) L = some (filled W.ctx mc num kws', L') ∧ Inv W L' ∧ Step W L L' ∧
      ∀ k ∈ kws', k.word ≠ [] ∧ k.shorter = none ∧ RegionOk L' k.region := by
  intro l
  induction l with
  | nil => intro kws L hi _ _ hk _; exact ⟨kws, L, rfl, hi, Step.refl _ _, hk⟩
  | cons a r ih =>
    intro kws L hi hm hr hk hn
    unfold addKeywords
    by_cases hw : isWord a = true
    · rw [if_pos hw]
      by_cases hne : a.attr (lit "name") = []
      · rw [if_pos hne]
        refine ih kws L hi hm hr hk ?_
        simpa [List.filter_cons, hw, hne] using hn
      · rw [if_neg hne]
        have h : ∃ x L', wordRegion loadF a region L = some (x, L') ∧
            Inv W L' ∧ Step W L L' ∧ RegionOk L' x := by
          unfold wordRegion
          split
          · exact ⟨region, L, rfl, hi, Step.refl _ _, hr⟩
          · exact attrRegion_does hg a (lit "region") L hi hm
        obtain ⟨x, L1, h1, h2, h3, h4⟩ := h
        rw [run_bind h1]
        have hn' : kws.length + 1 + (r.filter fun k => isWord k && decide (k.attr (lit "name") ≠ [])).length ≤ num := by
          rw [List.filter_cons, if_pos (by simp [hw, hne])] at hn
          simp only [List.length_cons] at hn
          omega
        have hadd : (filled W.ctx mc num kws).add W.ctx mc ⟨a.attr (lit "name"), x, a.tag = lit "symb", none⟩ =
            some (filled W.ctx mc num (kws ++ [⟨a.attr (lit "name"), x, a.tag = lit "symb", none⟩])) := by
          unfold KwArr.add
          rw [if_pos (by show kws.length < num; omega)]
          unfold filled addFirst
          simp [List.any_append, Bool.or_assoc]
        rw [hadd]
        dsimp only
        have m1 := h3.measure
        obtain ⟨kws', L2, g1, g2, g3, g4⟩ := ih (kws ++ [⟨a.attr (lit "name"), x, a.tag = lit "symb", none⟩]) L1 h2 (by omega) (hr.more h3.more) (by
          intro k hk'
          rcases List.mem_append.1 hk' with hk' | hk'
          · exact ⟨(hk k hk').1, (hk k hk').2.1, (hk k hk').2.2.more h3.more⟩
          · simp only [List.mem_singleton] at hk'
            subst hk'
            exact ⟨hne, rfl, h4⟩) (by simp only [List.length_append, List.length_cons, List.length_nil]; omega)
        exact ⟨kws', L2, g1, g2, h3.trans g3, g4⟩
    · rw [if_neg hw]
      refine ih kws L hi hm hr hk ?_
      simpa [List.filter_cons, hw] using hn

theorem readWordDiv_does (hg : Good W n loadF) (el : Elem) : Does W n (readWordDiv W loadF el) fun _ _ => True := by
  unfold readWordDiv
  split
  · exact does_pure _ fun _ _ => trivial
  · intro L hi hm
    obtain ⟨t, L1, h1, h2, h3, _⟩ := expandText_does hg (el.attr (lit "worddiv")) L hi hm
    rw [run_bind h1]
    exact ⟨_, L1, rfl, h2, h3, trivial⟩

theorem keywordsNode_does (hg : Good W n loadF) (el : Elem) : Does W n (keywordsNode W loadF el) (NodeOk W el) := by
  intro L hi hm
  unfold keywordsNode
  obtain ⟨r, L1, h1, h2, h3, h4⟩ := attrRegion_does hg el (lit "region") L hi hm
  rw [run_bind h1]
  split
  · exact ⟨none, L1, rfl, h2, h3, .none⟩
  · have m1 := h3.measure
    obtain ⟨d, L2, i1, i2, i3, _⟩ := readWordDiv_does hg el L1 h2 (by omega)
    rw [run_bind i1]
    have m2 := i3.measure
    generalize hmc : decide (el.attr (lit "ignorecase") ≠ lit "yes") = mc
    obtain ⟨kws, L3, j1, j2, j3, j4⟩ := addKeywords_does hg mc r (keywordCount el) el.kids [] L2 i2 (by omega) (h4.more i3.more) (by simp) (by simp [keywordCount])
    have e : filled W.ctx mc (keywordCount el) [] = ⟨keywordCount el, [], fun _ => false, 2147483647⟩ := rfl
    rw [e] at j1
    rw [run_bind j1]
    refine ⟨_, L3, rfl, j2, h3.trans (i3.trans j3), ?_⟩
    intro nd hnd
    cases hnd
    exact ⟨⟨by simp [SNode.links], kws, j4, rfl⟩, by simp [SNode.links]⟩

theorem nodeOf_does (hg : Good W n loadF) (el : Elem) : Does W n (nodeOf W loadF el) (NodeOk W el) := by
  unfold nodeOf
  split
  · exact inheritNode_does hg el
  · split
    · exact regexpNode_does hg el
    · split
      · exact blockNode_does hg el
      · split
        · exact keywordsNode_does hg el
        · exact does_pure _ fun _ _ => .none

end Verif.Hrc
