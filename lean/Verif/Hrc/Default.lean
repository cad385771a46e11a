import Verif.Hrc.Bodies
import Verif.RegExp.Written
import Verif.RegExp.Compiled
/-!
# C14, C62: names that end in `:default`, word division

`getNCRegion` (/repo/src/colorer/parsers/HrcLibraryImpl.cpp 1060-1069) and the attribute `worddiv` of `<keywords>` (600-640), said without the helpers of
the model.
-/
namespace Verif.Hrc

theorem prefix_append (a b : Name) : a.isPrefixOf (a ++ b) = true := by
  rw [List.isPrefixOf_iff_prefix]; exact List.prefix_append a b

/-- where the suffix is found first -/
theorem indexOfDefault_some {n : Name} {i : Nat} (h : indexOfDefault n = some i) : ∃ p r, n = p ++ (lit ":default" ++ r) ∧ p.length = i ∧
    ∀ p' r', n = p' ++ (lit ":default" ++ r') → p.length ≤ p'.length := by
  induction n generalizing i with
  | nil => cases h
  | cons c l ih =>
    rw [indexOfDefault] at h
    by_cases hp : defaultSuffix.isPrefixOf (c :: l) = true
    · rw [if_pos hp] at h
      injection h with h
      obtain ⟨r, hr⟩ := List.isPrefixOf_iff_prefix.1 hp
      exact ⟨[], r, hr.symm, h, fun p' r' _ => Nat.zero_le _⟩
    · rw [if_neg hp] at h
      cases hi : indexOfDefault l with
      | none => rw [hi] at h; cases h
      | some j =>
        rw [hi] at h
        injection h with h
        obtain ⟨p, r, e, hl, hm⟩ := ih hi
        refine ⟨c :: p, r, by rw [e]; rfl, (by have h' : j + 1 = i := h; rw [List.length_cons, hl, h']), fun p' r' e' => ?_⟩
        cases p' with
        | nil => exact absurd (show defaultSuffix.isPrefixOf (c :: l) = true by rw [e']; exact prefix_append _ _) hp
        | cons d p' =>
          rw [List.cons_append] at e'
          injection e' with _ e'
          have := hm p' r' e'
          simpa using this

theorem indexOfDefault_none {n : Name} (h : indexOfDefault n = none) : ¬ ∃ p r, n = p ++ (lit ":default" ++ r) := by
  induction n with
  | nil =>
    rintro ⟨p, r, e⟩
    have := congrArg List.length e
    rw [List.length_append, List.length_append, show (lit ":default").length = 8 from rfl, List.length_nil] at this
    omega
  | cons c l ih =>
    rw [indexOfDefault] at h
    by_cases hp : defaultSuffix.isPrefixOf (c :: l) = true
    · rw [if_pos hp] at h; cases h
    · rw [if_neg hp] at h
      have hn : indexOfDefault l = none := by
        cases hi : indexOfDefault l with
        | none => rfl
        | some j => rw [hi] at h; cases h
      rintro ⟨p, r, e⟩
      cases p with
      | nil => exact hp (by rw [e]; exact prefix_append _ _)
      | cons d p =>
        rw [List.cons_append] at e
        injection e with _ e
        exact ih hn ⟨p, r, e⟩

/-- the name ends in `:default`, and has it nowhere before -/
theorem isDefault_iff (n : Name) : isDefault n = true ↔ ∃ p, n = p ++ lit ":default" ∧ ∀ p' r, n = p' ++ (lit ":default" ++ r) → p.length ≤ p'.length := by
  unfold isDefault
  cases h : indexOfDefault n with
  | none =>
    refine ⟨fun h => (by cases h), ?_⟩
    rintro ⟨p, e, -⟩
    exact absurd ⟨p, [], by rw [List.append_nil]; exact e⟩ (indexOfDefault_none h)
  | some i =>
    obtain ⟨p, r, e, hl, hm⟩ := indexOfDefault_some h
    dsimp only
    rw [decide_eq_true_eq]
    have hlen : n.length = p.length + (8 + r.length) := by rw [e, List.length_append, List.length_append]; rfl
    constructor
    · intro h8
      have : r = [] := List.length_eq_zero_iff.1 (by omega)
      exact ⟨p, by rw [e, this, List.append_nil], hm⟩
    · rintro ⟨p2, e2, hm2⟩
      have h1 := hm2 p r e
      have h2 := hm p2 [] (by rw [List.append_nil]; exact e2)
      have : n.length = p2.length + 8 := by rw [e2, List.length_append]; rfl
      omega

/-- C14. The region `name` of the type `t` is found by `t:name`, with its number — unless it is called `default`: such a region is no region for anyone. -/
theorem C14_lookup_by_type_and_name {src : World} {fuel : Nat} (protos : List Name) (hp : ∀ t ∈ protos, 58 ∉ t) (hf : protos.length < fuel) (as : List Act) (L : Lib)
    (h : acts src fuel (Lib.init protos) as = some L) (i : Nat) (r : RegionRec) (hr : L.regs[i]? = some r) (t n : Name) (hn : r.name = t ++ 58 :: n)
    (h1 : 58 ∉ t) (h2 : 58 ∉ n) : getRegion src fuel (t ++ 58 :: n) L = some (if n = lit "default" then none else some i, L) := by
  have := C14_lookup_registered protos hp hf as L h i r hr
  rw [hn] at this
  rw [this]
  have hd : isDefault (t ++ 58 :: n) = true ↔ n = lit "default" := by
    have key : ∀ (p x : Name), t ++ 58 :: n = p ++ (58 :: x) → 58 ∉ x → p = t ∧ x = n := by
      have : ∀ (t p x : Name), 58 ∉ t → t ++ 58 :: n = p ++ (58 :: x) → 58 ∉ x → p = t ∧ x = n := by
        intro t
        induction t with
        | nil =>
          intro p x _ e hx
          cases p with
          | nil => injection e with _ e; exact ⟨rfl, e.symm⟩
          | cons c p =>
            injection e with _ e
            exact absurd (show (58 : Nat) ∈ n by rw [e]; simp) h2
        | cons c t ih =>
          intro p x ht e hx
          cases p with
          | nil =>
            injection e with e1 _
            exact absurd (by rw [e1]; simp) ht
          | cons d p =>
            injection e with e1 e
            obtain ⟨a, b⟩ := ih p x (fun h => ht (List.mem_cons_of_mem _ h)) e hx
            exact ⟨by rw [a, e1], b⟩
      exact fun p x => this t p x h1
    rw [isDefault_iff]
    constructor
    · rintro ⟨p, e, -⟩
      exact (key p (lit "default") e (by decide)).2.symm
    · intro e
      refine ⟨t, by rw [e]; rfl, fun p' r' e' => ?_⟩
      -- a place further left would be inside `t`
      refine Nat.le_of_not_lt fun hlt => h1 ?_
      have h3 : (t ++ 58 :: n)[p'.length]? = (p' ++ (lit ":default" ++ r'))[p'.length]? := by rw [e']
      rw [List.getElem?_append_left hlt, List.getElem?_append_right (Nat.le_refl _), Nat.sub_self] at h3
      exact List.mem_of_getElem? h3
  by_cases hc : n = lit "default"
  · rw [if_pos hc, if_pos (hd.2 hc)]
  · rw [if_neg hc, if_neg (fun h => hc (hd.1 h))]

/-- C62. The word division of a keyword list is the class written in it: for `[…]` or `[^…]` written correctly (C57) with any text behind it, the dividing characters are
those of the set. A text that does not begin with `[` is no division. -/
theorem C62_word_division_is_the_class_written {x : RegExp.Ctx} (hx : RegExp.CtxOk x) {neg : Bool} {k : RegExp.CR} {u : Name} (h1 : neg = false → k.text.head? ≠ some 94)
    (h2 : k.Ok x (93 :: u)) : (∃ s, wordDiv x (RegExp.bra neg ++ (k.text ++ [93]) ++ u) = some s ∧ ∀ d, s d = true ↔ RegExp.negIf neg (k.set x fun _ => False) d) ∧
    ∀ c t, c ≠ 91 → wordDiv x (c :: t) = none ∧ wordDiv x [] = none := by
  obtain ⟨s, e, hs⟩ := RegExp.C57_a_class_is_the_set_it_describes_partial hx h1 h2
  refine ⟨⟨s, ?_, hs⟩, fun c t hc => ⟨?_, rfl⟩⟩
  · obtain ⟨r, hr⟩ : ∃ r, RegExp.bra neg ++ (k.text ++ [93]) ++ u = 91 :: r := by
      cases neg with
      | true => exact ⟨_, rfl⟩
      | false => exact ⟨_, rfl⟩
    rw [hr] at e ⊢
    show (match RegExp.createCharClass x false (91 :: r) with
      | some (some (k, _)) => some k
      | _ => none) = some s
    rw [e]
  · unfold wordDiv
    split
    · rename_i heq
      injection heq with h _
      exact absurd h hc
    · rfl

/-- the hypotheses are met: `[^a-z-[c-e]\d-]` with a letter behind it -/
example : ∃ s, wordDiv RegExp.Demo.cx (RegExp.bra true ++ (RegExp.Demo.letters.text ++ [93]) ++ RegExp.Demo.str "b") = some s ∧
    ∀ d, s d = true ↔ RegExp.negIf true (RegExp.Demo.letters.set RegExp.Demo.cx fun _ => False) d :=
  (C62_word_division_is_the_class_written RegExp.Demo.cx_ok (by decide)
    (by simp [RegExp.Demo.letters, RegExp.CR.Ok, RegExp.Ch.Ok, RegExp.clsSpecial, RegExp.BAD, RegExp.Ch.val, RegExp.NoRange, RegExp.CR.text, RegExp.bra, RegExp.Ch.text])).1

/-- C62. Which objects a name can stand for: a region of that name that was registered, an entity of that name that was written, a scheme of that name. -/
theorem C62_what_a_name_can_stand_for (L : Lib) (n : Name) : (L.has .region n = true ↔ ∃ r ∈ L.regs, r.name = n) ∧
    (L.has .entity n = true ↔ ∃ v, (n, v) ∈ L.ents) ∧ (L.has .scheme n = true ↔ ∃ s ∈ L.schemes, s.name = n) := by
  refine ⟨?_, ?_, ?_⟩
  · show (L.regs.findIdx? (·.name = n)).isSome = true ↔ _
    simp
  · show ((L.ents.find? (·.1 = n)).map (·.2)).isSome = true ↔ _
    simp
  · show L.schemes.any (·.name = n) = true ↔ _
    simp

/-- C66. The named groups of a correctly written expression, to which the regions of a block are given, are those written in it, in their order. -/
theorem C66_named_groups_as_written {x : RegExp.Ctx} (hx : RegExp.CtxOk x) {sp fl : Name} {e : RegExp.Re} (hsp : ∀ c ∈ sp, x.isSpace c = true) (hfl : 47 ∉ fl)
    (hok : e.Ok (x.withFlags fl) ⟨1, []⟩ []) : bracketNames x (RegExp.written sp e fl) = (e.after ⟨1, []⟩).names := by
  obtain ⟨segs, h1, h2, h3, h4, -⟩ := RegExp.reads (RegExp.flagsOk hx fl) e ⟨1, []⟩ [] hok
  rw [List.append_nil, RegExp.S_nil, RegExp.pushAll_ok, List.append_nil] at h3
  have hd : (RegExp.written sp e fl).dropWhile x.isSpace = 47 :: (e.text ++ 47 :: fl) := by
    unfold RegExp.written
    rw [List.dropWhile_append_of_pos hsp]
    have : x.isSpace 47 = false := by
      cases hs : x.isSpace 47 with
      | false => rfl
      | true => exact absurd (by decide) (hx.space 47 hs)
    simp [this]
  have hS : RegExp.scan { x with ignoreCase := fl.contains 105, extend := fl.contains 120 } (e.text.length + 1) ⟨1, []⟩ e.text =
    .ok (RegExp.joinOr (segs.map Prod.fst)) (e.after ⟨1, []⟩) none := h3
  unfold bracketNames
  rw [hd]
  simp only
  rw [RegExp.lastSlash_at hfl]
  dsimp only
  rw [hS]

/-- the hypotheses are met: `/(?{n}\/)(\n)\1\p{N}/i` has one named group -/
example : (RegExp.Demo.sample2.after ⟨1, []⟩).names = [[110]] := by decide

example : isDefault (lit "def:default") = true ∧ isDefault (lit "def:Default") = false ∧ isDefault (lit "c:default2") = false := by decide +kernel

end Verif.Hrc
