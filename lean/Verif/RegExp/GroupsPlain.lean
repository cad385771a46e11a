import Verif.RegExp.Unclosed
import Verif.RegExp.Prefer

/-!
# Groups and the chain that was written (for C80)

The compiler joins characters into words and leaves empty nodes behind; neither changes what the groups hold. `tries`, `parse` with a group.
-/
namespace Verif.RegExp

/-! ## Chains -/

theorem lacksG_append (g : Grp) (l k : List Node) : lacksG g (l ++ k) = (lacksG g l && lacksG g k) := by
  induction l with
  | nil => rfl
  | cons n l ih => rw [List.cons_append, lacksG, lacksG, ih, Bool.and_assoc]

theorem openG_append {g : Grp} {l k : List Node} (hl : openG g l = true) (hk : openG g k = true) (h : (lacksG g l || lacksG g k) = true) :
    openG g (l ++ k) = true := by
  induction l with
  | nil => exact hk
  | cons n l ih =>
    rw [openG, Bool.and_eq_true, Bool.and_eq_true] at hl
    rw [lacksG] at h
    rw [List.cons_append, openG, lacksG_append]
    have := ih hl.1.2 (by cases h1 : lacksGN g n <;> cases h2 : lacksG g l <;> simp_all)
    rw [hl.1.1, this]
    cases h1 : lacksGN g n <;> cases h2 : lacksG g l <;> cases h3 : lacksG g k <;> simp_all

mutual
theorem open_lacks {g : Grp} : ∀ l : List Node, lacksG g l = true → openG g l = true
  | [], _ => by rw [openG]
  | n :: ns, h => by
    rw [lacksG, Bool.and_eq_true] at h
    rw [openG, openN_lacks n h.1, open_lacks ns h.2, h.1]; rfl
theorem openN_lacks {g : Grp} : ∀ n : Node, lacksGN g n = true → openGN g n = true
  | .brackets i b, h => by rw [lacksGN, Bool.and_eq_true] at h; rw [openGN, if_pos h.1]; exact open_lacks b h.2
  | .named i b, h => by rw [lacksGN, Bool.and_eq_true] at h; rw [openGN, if_pos h.1]; exact open_lacks b h.2
  | .or b, h => by rw [lacksGN] at h; rw [openGN]; exact open_lacks b h
  | .ahead b, h => by rw [lacksGN] at h; rw [openGN]; exact open_lacks b h
  | .behind _ b, h => by rw [lacksGN] at h; rw [openGN]; exact open_lacks b h
  | .rangeNM _ _ b, h => by rw [lacksGN] at h; rw [openGN, h]; rfl
  | .ngRangeNM _ _ b, h => by rw [lacksGN] at h; rw [openGN, h]; rfl
  | .nahead b, h => by rw [lacksGN] at h; rw [openGN]; exact h
  | .nbehind _ b, h => by rw [lacksGN] at h; rw [openGN]; exact h
  | .rangeN _ b, h => by rw [lacksGN] at h; rw [openGN]; exact h
  | .ngRangeN _ b, h => by rw [lacksGN] at h; rw [openGN]; exact h
  | .empty, _ | .msym _, _ | .symb _, _ | .word _, _ | .enum _, _ | .nenum _, _ | .bkTrace _, _ | .bkTraceN _, _ | .bkTraceName _, _ | .bkTraceNName _, _
  | .bkBrack _, _ | .bkBrackName _, _ => by rw [openGN]
end

theorem caps_one {env : Env} {g : Grp} {n : Node} (h : isOr n = false) (p : Int) : caps env g [n] p = capsN env g n p := by
  rw [caps, h, if_neg (by simp)]
  have : (fun v : Way => (caps env g [] v.1).map fun w => (w.1, w.2.or v.2)) = fun v => [v] := by
    funext v
    rw [caps]
    simp
  rw [this]
  simp

theorem caps_append (env : Env) (g : Grp) (l k : List Node) (h : ∀ n ∈ l, isOr n = false) (p : Int) :
    caps env g (l ++ k) p = (caps env g l p).flatMap fun v => (caps env g k v.1).map fun w => (w.1, w.2.or v.2) := by
  induction l generalizing p with
  | nil => simp [caps]
  | cons a l ih =>
    have ha := h a (by simp)
    simp only [List.cons_append, caps, ha, Bool.false_eq_true, if_false]
    rw [List.flatMap_assoc]
    refine flatMap_congr fun v _ => ?_
    rw [ih (fun n hn => h n (by simp [hn])) v.1, List.map_flatMap, List.flatMap_map]
    refine flatMap_congr fun w _ => ?_
    rw [List.map_map]
    refine List.map_congr_left fun u _ => ?_
    simp [Option.or_assoc]

/-! ## Words and empty nodes -/

theorem lacksG_symbs (g : Grp) (w : Text) : lacksG g (w.map .symb) = true := by
  induction w with
  | nil => rfl
  | cons c w ih => rw [List.map_cons, lacksG, lacksGN, ih]; rfl

mutual
theorem lacksG_plain (g : Grp) : ∀ l : List Node, lacksG g (plain l) = lacksG g l
  | [] => rfl
  | n :: r => by rw [plain, lacksG_append, lacksG, lacksG_plain g r, lacksG_plainN g n]
theorem lacksG_plainN (g : Grp) : ∀ n : Node, lacksG g (plainN n) = lacksGN g n
  | .empty => rfl
  | .word w => by rw [plainN, lacksG_symbs, lacksGN]
  | .brackets i b => by simp only [plainN, lacksG, lacksGN, lacksG_plain g b, Bool.and_true]
  | .named i b => by simp only [plainN, lacksG, lacksGN, lacksG_plain g b, Bool.and_true]
  | .ahead b => by simp only [plainN, lacksG, lacksGN, lacksG_plain g b, Bool.and_true]
  | .nahead b => by simp only [plainN, lacksG, lacksGN, lacksG_plain g b, Bool.and_true]
  | .behind _ b => by simp only [plainN, lacksG, lacksGN, lacksG_plain g b, Bool.and_true]
  | .nbehind _ b => by simp only [plainN, lacksG, lacksGN, lacksG_plain g b, Bool.and_true]
  | .or b => by simp only [plainN, lacksG, lacksGN, lacksG_plain g b, Bool.and_true]
  | .rangeN _ b => by simp only [plainN, lacksG, lacksGN, lacksG_plain g b, Bool.and_true]
  | .rangeNM _ _ b => by simp only [plainN, lacksG, lacksGN, lacksG_plain g b, Bool.and_true]
  | .ngRangeN _ b => by simp only [plainN, lacksG, lacksGN, lacksG_plain g b, Bool.and_true]
  | .ngRangeNM _ _ b => by simp only [plainN, lacksG, lacksGN, lacksG_plain g b, Bool.and_true]
  | .msym _ | .symb _ | .enum _ | .nenum _ | .bkTrace _ | .bkTraceN _ | .bkTraceName _ | .bkTraceNName _ | .bkBrack _ | .bkBrackName _ => by
    simp only [plainN, lacksG, lacksGN, Bool.and_true]
end

theorem openG_symbs (g : Grp) (w : Text) : openG g (w.map .symb) = true := open_lacks _ (lacksG_symbs g w)

theorem openG_one (g : Grp) (n : Node) : openG g [n] = openGN g n := by rw [openG, openG, lacksG]; simp

theorem openG_iff_append (g : Grp) (l k : List Node) : openG g (l ++ k) = (openG g l && openG g k && (lacksG g l || lacksG g k)) := by
  induction l with
  | nil => simp [openG, lacksG]
  | cons n l ih =>
    rw [List.cons_append, openG, ih, openG, lacksG, lacksG_append]
    cases openGN g n <;> cases openG g l <;> cases openG g k <;> cases lacksGN g n <;> cases lacksG g l <;> cases lacksG g k <;> rfl

mutual
theorem openG_plain (g : Grp) : ∀ l : List Node, openG g (plain l) = openG g l
  | [] => rfl
  | n :: r => by rw [plain, openG_iff_append, openG, openG_plain g r, openG_plainN g n, lacksG_plain, lacksG_plainN]
theorem openG_plainN (g : Grp) : ∀ n : Node, openG g (plainN n) = openGN g n
  | .empty => by rw [plainN, openG, openGN]
  | .word w => by rw [plainN, openG_symbs, openGN]
  | .brackets i b => by rw [plainN, openG_one, openGN, openGN, openG_plain g b, lacksG_plain]
  | .named i b => by rw [plainN, openG_one, openGN, openGN, openG_plain g b, lacksG_plain]
  | .ahead b => by rw [plainN, openG_one, openGN, openGN, openG_plain g b]
  | .behind _ b => by rw [plainN, openG_one, openGN, openGN, openG_plain g b]
  | .or b => by rw [plainN, openG_one, openGN, openGN, openG_plain g b]
  | .nahead b => by rw [plainN, openG_one, openGN, openGN, lacksG_plain]
  | .nbehind _ b => by rw [plainN, openG_one, openGN, openGN, lacksG_plain]
  | .rangeN _ b => by rw [plainN, openG_one, openGN, openGN, lacksG_plain]
  | .ngRangeN _ b => by rw [plainN, openG_one, openGN, openGN, lacksG_plain]
  | .rangeNM _ _ b => by rw [plainN, openG_one, openGN, openGN, openG_plain g b, lacksG_plain]
  | .ngRangeNM _ _ b => by rw [plainN, openG_one, openGN, openGN, openG_plain g b, lacksG_plain]
  | .msym _ | .symb _ | .enum _ | .nenum _ | .bkTrace _ | .bkTraceN _ | .bkTraceName _ | .bkTraceNName _ | .bkBrack _ | .bkBrackName _ => by
    rw [plainN, openG_one]
end

section plain

theorem capsN_lacks_plain {env : Env} (he : SpecOk env) (g : Grp) {n : Node} (hc : CaseFor env (lettersN n)) (ho : isOr n = false) (hl : lacksGN g n = true) {p : Int} (h0 : 0 ≤ p) (h1 : p ≤ env.stop) :
    caps env g (plainN n) p = capsN env g n p := by
  rw [caps_lacks env g _ p (by rw [lacksG_plainN]; exact hl), capsN_lacks env g n p hl, (endsN_plain he n hc).1 ho p h0 h1]

mutual
theorem caps_plain {env : Env} (he : SpecOk env) (g : Grp) :
    ∀ (l : List Node), CaseFor env (letters l) → ∀ (p : Int), 0 ≤ p → p ≤ env.stop → caps env g (plain l) p = caps env g l p
  | [], _, p, _, _ => rfl
  | n :: r, hc, p, h0, h1 => by
    rw [plain]
    cases h : isOr n with
    | true =>
      have e := (capsN_plain he g n hc.head).2
      obtain ⟨b, rfl⟩ := plainN_or h
      simp only [plainN, List.cons_append, List.nil_append, caps, capsN, isOr, if_true]
      rw [e b rfl p h0 h1, caps_plain he g r hc.tail p h0 h1]
    | false =>
      rw [caps_append env g _ _ (plainN_noOr h), caps, h, if_neg (by simp), (capsN_plain he g n hc.head).1 h p h0 h1]
      exact flatMap_congr fun v hv => by
        have hm : v.1 ∈ endsN env n p := by rw [← capsN_fst env g n p]; exact List.mem_map_of_mem hv
        have := endsN_fwd he.ok n p v.1 h0 h1 hm
        rw [caps_plain he g r hc.tail v.1 (by omega) this.2]
theorem capsN_plain {env : Env} (he : SpecOk env) (g : Grp) :
    ∀ (n : Node), CaseFor env (lettersN n) → (isOr n = false → ∀ p : Int, 0 ≤ p → p ≤ env.stop → caps env g (plainN n) p = capsN env g n p) ∧
      (∀ b, n = .or b → ∀ p : Int, 0 ≤ p → p ≤ env.stop → caps env g (plain b) p = caps env g b p)
  | .or b => fun hc => ⟨(fun h => by cases h), (fun c h => by cases h; exact caps_plain he g b hc)⟩
  | .empty => fun hc => ⟨fun _ p h0 h1 => capsN_lacks_plain he g hc rfl (by rw [lacksGN]) h0 h1, fun c h => by cases h⟩
  | .word w => fun hc => ⟨fun _ p h0 h1 => capsN_lacks_plain he g hc rfl (by rw [lacksGN]) h0 h1, fun c h => by cases h⟩
  | .msym _ => fun hc => ⟨fun _ p _ _ => by rw [plainN, caps_one rfl], fun c h => by cases h⟩
  | .symb _ => fun hc => ⟨fun _ p h0 h1 => capsN_lacks_plain he g hc rfl (by rw [lacksGN]) h0 h1, fun c h => by cases h⟩
  | .enum _ => fun hc => ⟨fun _ p h0 h1 => capsN_lacks_plain he g hc rfl (by rw [lacksGN]) h0 h1, fun c h => by cases h⟩
  | .nenum _ => fun hc => ⟨fun _ p h0 h1 => capsN_lacks_plain he g hc rfl (by rw [lacksGN]) h0 h1, fun c h => by cases h⟩
  | .bkTrace _ => fun hc => ⟨fun _ p h0 h1 => capsN_lacks_plain he g hc rfl (by rw [lacksGN]) h0 h1, fun c h => by cases h⟩
  | .bkTraceN _ => fun hc => ⟨fun _ p h0 h1 => capsN_lacks_plain he g hc rfl (by rw [lacksGN]) h0 h1, fun c h => by cases h⟩
  | .bkTraceName _ => fun hc => ⟨fun _ p h0 h1 => capsN_lacks_plain he g hc rfl (by rw [lacksGN]) h0 h1, fun c h => by cases h⟩
  | .bkTraceNName _ => fun hc => ⟨fun _ p h0 h1 => capsN_lacks_plain he g hc rfl (by rw [lacksGN]) h0 h1, fun c h => by cases h⟩
  | .bkBrack _ => fun hc => ⟨fun _ p h0 h1 => capsN_lacks_plain he g hc rfl (by rw [lacksGN]) h0 h1, fun c h => by cases h⟩
  | .bkBrackName _ => fun hc => ⟨fun _ p h0 h1 => capsN_lacks_plain he g hc rfl (by rw [lacksGN]) h0 h1, fun c h => by cases h⟩
  | .brackets i b => fun hc => ⟨fun _ p h0 h1 => by
      rw [plainN, caps_one rfl, capsN, capsN, caps_plain he g b hc p h0 h1, ends_plain he b hc p h0 h1], fun c h => by cases h⟩
  | .named i b => fun hc => ⟨fun _ p h0 h1 => by
      rw [plainN, caps_one rfl, capsN, capsN, caps_plain he g b hc p h0 h1, ends_plain he b hc p h0 h1], fun c h => by cases h⟩
  | .ahead b => fun hc => ⟨fun _ p h0 h1 => by rw [plainN, caps_one rfl, capsN, capsN, caps_plain he g b hc p h0 h1], fun c h => by cases h⟩
  | .behind k b => fun hc => ⟨fun _ p h0 h1 => by
      rw [plainN, caps_one rfl, capsN, capsN]
      split
      · rfl
      · rw [caps_plain he g b hc (p - k) (by omega) (by omega)], fun c h => by cases h⟩
  | .nahead b => fun hc => ⟨fun _ p h0 h1 => by
      have := (endsN_plain he (.nahead b) hc).1 rfl p h0 h1
      rw [plainN, ends_one rfl] at this
      rw [plainN, caps_one rfl, capsN, capsN, this], fun c h => by cases h⟩
  | .nbehind k b => fun hc => ⟨fun _ p h0 h1 => by
      have := (endsN_plain he (.nbehind k b) hc).1 rfl p h0 h1
      rw [plainN, ends_one rfl] at this
      rw [plainN, caps_one rfl, capsN, capsN, this], fun c h => by cases h⟩
  | .rangeN s b => fun hc => ⟨fun _ p h0 h1 => by
      have := (endsN_plain he (.rangeN s b) hc).1 rfl p h0 h1
      rw [plainN, ends_one rfl] at this
      rw [plainN, caps_one rfl, capsN, capsN, this], fun c h => by cases h⟩
  | .ngRangeN s b => fun hc => ⟨fun _ p h0 h1 => by
      have := (endsN_plain he (.ngRangeN s b) hc).1 rfl p h0 h1
      rw [plainN, ends_one rfl] at this
      rw [plainN, caps_one rfl, capsN, capsN, this], fun c h => by cases h⟩
  | .rangeNM s e b => fun hc => ⟨fun _ p h0 h1 => by
      have := (endsN_plain he (.rangeNM s e b) hc).1 rfl p h0 h1
      rw [plainN, ends_one rfl] at this
      rw [plainN, caps_one rfl, capsN, capsN, this, caps_plain he g b hc p h0 h1], fun c h => by cases h⟩
  | .ngRangeNM s e b => fun hc => ⟨fun _ p h0 h1 => by
      have := (endsN_plain he (.ngRangeNM s e b) hc).1 rfl p h0 h1
      rw [plainN, ends_one rfl] at this
      rw [plainN, caps_one rfl, capsN, capsN, this, caps_plain he g b hc p h0 h1], fun c h => by cases h⟩
end

end plain

/-! ## A search -/

theorem tries_group {env : Env} (he : EnvOk env env.stop) {g : Grp} (hg : g ≠ .num 0) (body : List Node) (hf : inFrag false body = true)
    (ho : openG g body = true) (keep : Bool) (n : Nat) :
    ∀ (p : Int) (m : Mem), 0 ≤ p → p + n ≤ env.stop →
    ∃ k, ∀ fuel, k ≤ fuel → ∃ out, tries env [[.brackets (some 0) body]] fuel keep n p m = some out ∧
      ∀ a b s e, firstMatch env body n p = some (a, b) → (caps env g body a).head? = some (b, some (s, e)) → Held g s e out.m := by
  induction n with
  | zero =>
    intro p m h0 h1
    obtain ⟨k, m', hr, -⟩ := run_root he body hf h0 (by omega) m
    obtain ⟨k2, hr2⟩ := run_group he hg body hf ho h0 (by omega) m
    refine ⟨max k k2, fun fuel hk => ?_⟩
    have r1 := hr fuel (by omega)
    have r2 := hr2 fuel (by omega) _ r1
    rw [tries.eq_def]
    dsimp only
    rw [r1, firstMatch]
    cases hl : ends env body p with
    | nil => exact ⟨_, rfl, by simp⟩
    | cons q qs =>
      refine ⟨_, rfl, fun a b s e hab hc => ?_⟩
      simp only [Option.some.injEq, Prod.mk.injEq] at hab
      obtain ⟨rfl, rfl⟩ := hab
      exact r2 _ s e hc
  | succ n ih =>
    intro p m h0 h1
    obtain ⟨k, m', hr, -⟩ := run_root he body hf h0 (by omega) m
    obtain ⟨k2, hr2⟩ := run_group he hg body hf ho h0 (by omega) m
    obtain ⟨k', hr'⟩ := ih (p + 1) m' (by omega) (by omega)
    refine ⟨max (max k k2) k', fun fuel hk => ?_⟩
    have r1 := hr fuel (by omega)
    have r2 := hr2 fuel (by omega) _ r1
    rw [tries.eq_def]
    dsimp only
    rw [r1, firstMatch]
    cases hl : ends env body p with
    | nil => exact hr' fuel (by omega)
    | cons q qs =>
      refine ⟨_, rfl, fun a b s e hab hc => ?_⟩
      simp only [Option.some.injEq, Prod.mk.injEq] at hab
      obtain ⟨rfl, rfl⟩ := hab
      exact r2 _ s e hc

/-- what `parse` leaves in a group -/
theorem parse_group (chars : Chars) (x : Expr) (o : Obj) (a : Args) (mtch : Matches) (hok : x.ok = true)
    (hfr : inFrag false x.body = true) {g : Grp} (hg : g ≠ .num 0) (hog : openG g x.body = true) (hml : x.flags.multiLine = false)
    (hic : x.flags.ignoreCase = true → CaseOn chars (fun c => c ∈ a.text ∨ c ∈ letters x.body))
    (h0 : 0 ≤ a.pos) (h1 : a.pos ≤ a.eol) (h2 : a.eol ≤ a.text.length) (hb : TraceOk a.back) :
    ∃ k, ∀ fuel, k ≤ fuel → ∃ out, parse chars x fuel o a mtch = some out ∧
      out.res = .ret (firstMatch (envOf chars x a) x.body (if a.moves.getD o.moves then (a.eol - a.pos).toNat else 0) a.pos).isSome ∧
      ∀ p q, firstMatch (envOf chars x a) x.body (if a.moves.getD o.moves then (a.eol - a.pos).toNat else 0) a.pos = some (p, q) →
        WholeOut p q out ∧ ∀ s e, (caps (envOf chars x a) g x.body p).head? = some (q, some (s, e)) → Held g s e out.m := by
  have he : EnvOk (envOf chars x a) (envOf chars x a).stop := ⟨Int.le_refl _, h2, hb⟩
  obtain ⟨k1, hk1⟩ := tries_group he hg x.body hfr hog o.moves (if a.moves.getD o.moves then (a.eol - a.pos).toNat else 0) a.pos
    ⟨o.vars, clearMatches x mtch, o.startChange, o.endChange⟩ h0 (by show _ ≤ a.eol; split <;> omega)
  obtain ⟨k2, hk2⟩ := C31_the_first_test_is_invisible_partial chars x a hml hic h0 (by omega) h2
  obtain ⟨k3, hk3⟩ := parse_exact chars x o a mtch hok hfr hml hic h0 h1 h2 hb
  refine ⟨max (max k1 k2) k3, fun fuel hk => ?_⟩
  obtain ⟨out, ho, hw⟩ := hk1 fuel (by omega)
  obtain ⟨e1, e2⟩ := hk2 fuel o mtch (by omega)
  obtain ⟨out', hp, hr, hw'⟩ := hk3 fuel (by omega)
  have hall : parseAll chars x fuel o a mtch = some out := by
    unfold parseAll
    rw [if_neg (by simp [hok])]
    exact ho
  refine ⟨out', hp, hr, fun p q hpq => ?_⟩
  refine ⟨hw' p q hpq, fun s e hc => ?_⟩
  have ht : out'.res = .ret true := by rw [hr, hpq]; rfl
  have := e2 out' hp ht
  rw [hall] at this
  cases this
  exact hw p q s e hpq hc

end Verif.RegExp
