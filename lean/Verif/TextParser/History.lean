import Verif.TextParser.Resume
import Verif.TextParser.Demo
/-!
# C34: incremental parsing equals full parsing; edits and parses in any order

Specification: `fresh base` is a parser after `initCache`. A session (`Step`) is any sequence of edits, reading parses and updating
parses, where a parse begins at or before the first line whose cache may be out of date (`good`) - this is how BaseEditor calls the
parser (Verif.Editor).
-/
namespace Verif.TextParser
open Verif.VTList (VEntries resolve)

/-- a parser with an empty cache -/
def fresh (base : Nat) : PState := ⟨[], base, 0, ⟨0, 0, []⟩⟩

/-- the events of the lines from `a` to `b - 1`, without the replayed entries -/
def between (a b : Int) (evs : List Ev) : List Ev := evs.filter fun e => onOrAfter a e && before b e && notPseudo e

/-! ## Proof -/

theorem between_all {F : Int} {n : Nat} {evs : List Ev} {b : Int} (h : Lines F n evs) (hb : F + n ≤ b) :
    between F b evs = evs.filter notPseudo := by
  unfold between
  refine List.filter_congr ?_
  intro e he
  obtain ⟨l, h1, h2, h3⟩ := h.mem e he
  simp only [onOrAfter, before, h1]
  rw [decide_eq_true h2, decide_eq_true (by omega)]
  simp

theorem between_none {F G b : Int} {n : Nat} {evs : List Ev} (h : Lines F n evs) (hb : F + n ≤ G) : between G b evs = [] := by
  unfold between
  rw [List.filter_eq_nil_iff]
  intro e he
  obtain ⟨l, h1, h2, h3⟩ := h.mem e he
  simp only [onOrAfter, before, h1]
  rw [decide_eq_false (by omega)]
  simp

theorem between_append (a b : Int) (xs ys : List Ev) : between a b (xs ++ ys) = between a b xs ++ between a b ys := by
  simp [between]

theorem between_filter (a b : Int) (xs : List Ev) : between a b (xs.filter notPseudo) = between a b xs := by
  unfold between
  rw [List.filter_filter]
  refine List.filter_congr ?_
  intro e _
  cases notPseudo e <;> simp

theorem between_start (a b l : Int) : between a b [.start l] = [] := rfl
theorem between_fin (a b l : Int) : between a b [.fin l] = [] := rfl

/-- C34, one resumed parse. Full parse `r` of `[0, E)` from an empty cache; a parser `p` whose cache leads to the same open entries at
line `F` as that of `r`. Then parsing `[F, E)` with `p` reports the events that the full parse reported for these lines, and an
updating parse leaves the cache of the full parse. -/
theorem C34_resumed_parse_equals_full (env : Env) (hp : Pure env) (p0 p : PState) (h0 : p0.cache = []) (E F : Int) (hF : 0 ≤ F)
    (hFE : F ≤ E) (hmax : F ≤ 0x7FFFFFF) (r : Result) (h : Parses env p0 0 E .update r) (hh : r.hit = false) (mode : Mode) (hm : mode ≠ .off)
    (hb : p.base = p0.base) (hloc : locateRoot F p.cache = locateRoot F r.after.cache) :
    ∃ r2, Parses env p F (E - F) mode r2 ∧ r2.hit = false ∧ between F E r2.evs = between F E r.evs ∧
      (mode = .update → r2.after.cache = r.after.cache) := by
  obtain ⟨fs, c, rF, A, new, a1, a2, a3, a4, a5, a6, a7⟩ := resume_core hp h0 hF hFE h hh
  obtain ⟨r2, new2, b1, b2, b3, b4, b5⟩ := a7 p mode hm hmax hb (hloc.trans a4)
  refine ⟨r2, b1, b2, ?_, b5⟩
  obtain ⟨fuelF, hF1⟩ := a1.parse
  obtain ⟨nF, eF, x1, x2, x3, _, _, _⟩ := C32_lines_in_order _ _ _ _ _ _ _ (Int.le_refl 0) hF1
  rw [a6] at x1
  have x1 : A = .start 0 :: eF := List.append_cancel_right x1
  have e1 : between F E r.evs = between F E new := by
    rw [a5, between_append, between_append, between_fin, x1]
    rw [show (Ev.start 0 :: eF) = [Ev.start 0] ++ eF from rfl, between_append, between_start, between_none x2 (by omega)]
    simp
  have e2 : between F E r2.evs = between F E new2 := by
    rw [b3, show (Ev.start F :: new2) = [Ev.start F] ++ new2 from rfl, between_append, between_append, between_fin, between_start]
    simp
  rw [e1, e2, ← between_filter, b4, between_filter]

/-- C34, prefix: the full parse of fewer lines reports the same events for them, and its cache leads to the same open entries at its
end. -/
theorem C34_shorter_parse_is_prefix (env : Env) (hp : Pure env) (p0 : PState) (h0 : p0.cache = []) (E F : Int) (hF : 0 ≤ F) (hFE : F ≤ E)
    (hmax : F ≤ 0x7FFFFFF) (r : Result) (h : Parses env p0 0 E .update r) (hh : r.hit = false) :
    ∃ rF, Parses env p0 0 F .update rF ∧ rF.hit = false ∧ between 0 F rF.evs = between 0 F r.evs ∧
      locateRoot F rF.after.cache = locateRoot F r.after.cache := by
  obtain ⟨fs, c, rF, A, new, a1, a2, a3, a4, a5, a6, a7⟩ := resume_core hp h0 hF hFE h hh
  refine ⟨rF, a1, a2, ?_, a3.trans a4.symm⟩
  obtain ⟨r2, new2, b1, b2, b3, b4, b5⟩ := a7 { p0 with cache := r.after.cache } .read (by simp) hmax rfl a4
  obtain ⟨fuel2, h2⟩ := b1.parse
  obtain ⟨n, e2, x1, x2, _⟩ := C32_lines_in_order _ _ _ _ _ _ _ hF h2
  rw [b3] at x1
  have x1 : Ev.start F :: new2 = .start F :: e2 := List.append_cancel_right x1
  have x1 : new2 = e2 := by simpa using x1
  have e3 : between 0 F new = [] := by
    rw [← between_filter, ← b4, between_filter, x1]
    unfold between
    rw [List.filter_eq_nil_iff]
    intro e he
    obtain ⟨l, h1, h2, h3⟩ := x2.mem e he
    simp only [before, h1]
    rw [decide_eq_false (by omega)]
    simp
  rw [a5, a6, between_append, between_append, between_append, e3, between_fin, between_fin]
  simp

/-- C34 as stated: after a full parse of `[0, n)`, a reading parse of any lines `[k, m)` within it reports for them exactly the events
of the full parse. -/
theorem C34_incremental_equals_full (env : Env) (hp : Pure env) (p0 : PState) (h0 : p0.cache = []) (n k m : Int) (hk : 0 ≤ k) (hkm : k ≤ m)
    (hmn : m ≤ n) (hmax : m ≤ 0x7FFFFFF) (r : Result) (h : Parses env p0 0 n .update r) (hh : r.hit = false) :
    ∃ r2, Parses env r.after k (m - k) .read r2 ∧ between k m r2.evs = between k m r.evs := by
  obtain ⟨rm, a1, a2, a3, a4⟩ := C34_shorter_parse_is_prefix env hp p0 h0 n m (by omega) hmn hmax r h hh
  obtain ⟨rk, b1, b2, b3, b4⟩ := C34_shorter_parse_is_prefix env hp p0 h0 n k hk (by omega) (by omega) r h hh
  obtain ⟨rk', c1, c2, c3, c4⟩ := C34_shorter_parse_is_prefix env hp p0 h0 m k hk hkm (by omega) rm a1 a2
  have := b1.det c1
  subst this
  have hbase : r.after.base = p0.base := by
    obtain ⟨fuel, hf⟩ := h.parse
    obtain ⟨_, _, _, _, _, hr⟩ := parse_cb hf
    rw [hr]
  obtain ⟨r2, d1, d2, d3, d4⟩ := C34_resumed_parse_equals_full env hp p0 r.after h0 m k hk hkm (by omega) rm a1 a2 .read (by simp) hbase
    (b4.symm.trans c4)
  refine ⟨r2, d1, d3.trans ?_⟩
  have key : ∀ evs : List Ev, between k m evs = (between 0 m evs).filter (onOrAfter k) := by
    intro evs
    unfold between
    rw [List.filter_filter]
    refine List.filter_congr ?_
    intro e _
    cases hl : e.line? with
    | none => simp [onOrAfter, hl]
    | some l =>
      simp only [onOrAfter, before, hl]
      by_cases h1 : k ≤ l
      · rw [decide_eq_true h1, decide_eq_true (show 0 ≤ l by omega)]; simp
      · rw [decide_eq_false h1]; simp
  rw [key, a3, ← key]

/-- the same grammar over another text -/
def Env.text (env : Env) (T : Int → Option Text) : Env := { env with line := T }

/-- the full parse of the lines before `F` does not depend on the other lines, nor on what the parser did before -/
theorem fresh_congr {env : Env} (hp : Pure env) {T T' : Int → Option Text} {p0 p1 : PState} (h0 : p0.cache = []) (h1 : p1.cache = [])
    (hb : p1.base = p0.base) {F : Int} (hT : ∀ l, l < F → T' l = T l) {r : Result} (h : Parses (env.text T) p0 0 F .update r)
    (hh : r.hit = false) : ∃ r', Parses (env.text T') p1 0 F .update r' ∧ r'.hit = false ∧ r'.after.cache = r.after.cache := by
  have H : EnvSim ((env.text T).call 0 F .update) ((env.text T').call 0 F .update) :=
    ⟨rfl, hp.rx, hp.kw, hp.brk, hp.brk, fun l hl => hT l (by have : l < 0 + F := hl; omega), rfl, rfl, rfl, fun _ => rfl⟩
  have hz : ∀ p : PState, p.cache = [] → entry p 0 .update = some ⟨[], []⟩ := by
    intro p hp
    simp only [entry, hp]
    rw [if_pos (by omega)]
    unfold locateRoot
    rw [locateKids.eq_def]
  obtain ⟨fuel, h⟩ := h.parse
  obtain ⟨z, me, st, hze, hcb, hr⟩ := parse_cb h
  rw [hz p0 h0] at hze
  cases hze
  cases hcb with
  | @nil _ _ o st1 hbg =>
    cases hbg with
    | limit hl => exact absurd hl (by simp)
    | @colorize _ _ _ _ st2 hl hbg =>
      subst hr
      have hh : st2.hit = false := hh
      obtain ⟨me3, t', d1, d2⟩ := chain_sim (P1 := [.start 0]) (P2 := [.start 0]) (base := p0.base) H (.nil) hbg hh [] p1.me (startState p1 0 ⟨[], []⟩) rfl
        (by show 0 + 1 ≤ 0 + 1; omega) ⟨rfl, fun _ => rfl, Or.inl rfl, Nat.zero_le _, rfl, fun _ => rfl, [], [], rfl, rfl, rfl⟩
      rw [← hb] at d1
      refine ⟨_, parses_of_cb (hz p1 h1) d1, d2.hit, ?_⟩
      show t'.zip.root = st2.zip.root
      rw [d2.zip rfl]

/-- an editing session: the text, the parser, and the first line for which the cache may be out of date -/
structure Sess where
  text : Int → Option Text
  p    : PState
  good : Int

inductive Step (env : Env) (base : Nat) : Sess → Sess → Prop
  /-- the text changes from line `k` on -/
  | edit {s : Sess} {T : Int → Option Text} {k : Int} : 0 ≤ k → (∀ l, l < k → T l = s.text l) →
      Step env base s { s with text := T, good := min s.good k }
  /-- a parse that only reads the cache -/
  | read {s : Sess} {F n : Int} {r : Result} : Parses (env.text s.text) s.p F n .read r → Step env base s { s with p := r.after }
  /-- a parse that updates the cache, begun where it is up to date, of a text whose full parse ends within the recursion limit -/
  | update {s : Sess} {F E : Int} {r r0 : Result} : 0 ≤ F → F ≤ s.good → F ≤ E → E ≤ 0x7FFFFFF →
      Parses (env.text s.text) (fresh base) 0 E .update r0 → r0.hit = false →
      Parses (env.text s.text) s.p F (E - F) .update r → Step env base s { s with p := r.after, good := E }

/-- any number of steps, beginning with an empty cache -/
inductive Reach (env : Env) (base : Nat) : Sess → Prop
  | init {T : Int → Option Text} {p : PState} : p.cache = [] → p.base = base → Reach env base ⟨T, p, 0⟩
  | step {s s' : Sess} : Reach env base s → Step env base s s' → Reach env base s'

theorem Pure.text {env : Env} (hp : Pure env) (T : Int → Option Text) : Pure (env.text T) := ⟨hp.rx, hp.kw, hp.brk⟩

theorem parses_base {env : Env} {p : PState} {from' num : Int} {mode : Mode} {r : Result} (h : Parses env p from' num mode r) :
    r.after.base = p.base ∧ (mode ≠ .update → r.after.cache = p.cache) := by
  obtain ⟨fuel, hf⟩ := h.parse
  obtain ⟨_, _, _, _, _, hr⟩ := parse_cb hf
  rw [hr]
  exact ⟨rfl, fun h => by simp [h]⟩

/-- the cache leads, at every line up to `good`, to what a full parse of the lines before it finds -/
def CacheOk (env : Env) (base : Nat) (s : Sess) : Prop :=
  s.p.base = base ∧ 0 ≤ s.good ∧ s.good ≤ 0x7FFFFFF ∧
  ∀ F, 0 ≤ F → F ≤ s.good → ∃ rF, Parses (env.text s.text) (fresh base) 0 F .update rF ∧ rF.hit = false ∧
    locateRoot F s.p.cache = locateRoot F rF.after.cache

theorem parse_zero (env : Env) (p : PState) (hc : p.cache = []) :
    ∃ r, Parses env p 0 0 .update r ∧ r.hit = false ∧ r.after.cache = [] := by
  have hz : entry p 0 .update = some ⟨[], []⟩ := by
    simp only [entry, hc]
    rw [if_pos (by omega)]
    unfold locateRoot
    rw [locateKids.eq_def]
  have b : Big (env.call 0 0 .update) (.colorize ⟨none, false, p.base, []⟩ p.me) { startState p 0 ⟨[], []⟩ with level := 0 }
      { me := p.me } _ := .colorize (by show ¬ 0 > _; omega) (.outEnd (by show ¬ (0 : Int) < 0 + 0; omega))
  exact ⟨_, parses_of_cb hz (.nil b), rfl, rfl⟩

theorem reach_ok {env : Env} (hp : Pure env) {base : Nat} {s : Sess} (h : Reach env base s) : CacheOk env base s := by
  induction h with
  | @init T p hc hb =>
    refine ⟨hb, by show (0 : Int) ≤ 0; omega, by show (0 : Int) ≤ _; omega, ?_⟩
    intro F h1 h2
    have h2 : F ≤ 0 := h2
    have : F = 0 := by omega
    subst this
    obtain ⟨r, a1, a2, a3⟩ := parse_zero (env.text T) (fresh base) rfl
    exact ⟨r, a1, a2, by show locateRoot 0 p.cache = _; rw [hc, a3]⟩
  | @step s s' _ hs ih =>
    obtain ⟨i1, i2, i3, i4⟩ := ih
    cases hs with
    | @edit T k hk hT =>
      refine ⟨i1, by show 0 ≤ min s.good k; omega, by show min s.good k ≤ _; omega, ?_⟩
      intro F h1 h2
      have h2 : F ≤ min s.good k := h2
      obtain ⟨rF, a1, a2, a3⟩ := i4 F h1 (by omega)
      obtain ⟨r', b1, b2, b3⟩ := fresh_congr hp (p0 := fresh base) (p1 := fresh base) rfl rfl rfl (fun l hl => hT l (by omega)) a1 a2
      exact ⟨r', b1, b2, by rw [b3]; exact a3⟩
    | @read F n r hr =>
      obtain ⟨b1, b2⟩ := parses_base hr
      refine ⟨b1.trans i1, i2, i3, ?_⟩
      intro G h1 h2
      show ∃ rF, _ ∧ _ ∧ locateRoot G r.after.cache = _
      rw [b2 (by simp)]
      exact i4 G h1 h2
    | @update F E r r0 hF hg hFE hE h0 hh hr =>
      have hpt := hp.text s.text
      obtain ⟨rF, a1, a2, a3⟩ := i4 F hF hg
      obtain ⟨rF', c1, c2, c3, c4⟩ := C34_shorter_parse_is_prefix _ hpt (fresh base) rfl E F hF hFE (by omega) r0 h0 hh
      have := a1.det c1
      subst this
      obtain ⟨r2, d1, d2, d3, d4⟩ := C34_resumed_parse_equals_full _ hpt (fresh base) s.p rfl E F hF hFE (by omega) r0 h0 hh .update (by simp)
        i1 (a3.trans c4)
      have := d1.det hr
      subst this
      refine ⟨(parses_base hr).1.trans i1, by show 0 ≤ E; omega, hE, ?_⟩
      intro G h1 h2
      obtain ⟨rG, e1, e2, e3, e4⟩ := C34_shorter_parse_is_prefix _ hpt (fresh base) rfl E G h1 h2 (by have h2 : G ≤ E := h2; omega) r0 h0 hh
      refine ⟨rG, e1, e2, ?_⟩
      show locateRoot G r2.after.cache = _
      rw [d4 rfl]
      exact e4.symm

/-- C34 for any history of edits, reading and updating parses: a parse that begins where the cache is up to date ends and reports for
its lines the events that parsing the present text from the beginning with an empty cache reports for them; an updating one leaves the
cache such a full parse leaves. -/
theorem C34_any_history (env : Env) (hp : Pure env) (base : Nat) (s : Sess) (h : Reach env base s) (F E : Int) (hF : 0 ≤ F)
    (hg : F ≤ s.good) (hFE : F ≤ E) (mode : Mode) (hm : mode ≠ .off) (r0 : Result)
    (h0 : Parses (env.text s.text) (fresh base) 0 E .update r0) (hh : r0.hit = false) :
    ∃ r, Parses (env.text s.text) s.p F (E - F) mode r ∧ between F E r.evs = between F E r0.evs ∧
      (mode = .update → r.after.cache = r0.after.cache) := by
  obtain ⟨i1, i2, i3, i4⟩ := reach_ok hp h
  have hpt := hp.text s.text
  obtain ⟨rF, a1, a2, a3⟩ := i4 F hF hg
  obtain ⟨rF', c1, c2, c3, c4⟩ := C34_shorter_parse_is_prefix _ hpt (fresh base) rfl E F hF hFE (by omega) r0 h0 hh
  have := a1.det c1
  subst this
  obtain ⟨r2, d1, d2, d3, d4⟩ := C34_resumed_parse_equals_full _ hpt (fresh base) s.p rfl E F hF hFE (by omega) r0 h0 hh mode hm
    i1 (a3.trans c4)
  exact ⟨r2, d1, d3, d4⟩

end Verif.TextParser
