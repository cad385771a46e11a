import Verif.Io.Paths

/-!
# Locations in archives (C54) and environment variables in locations (C52)
-/
namespace Verif.Io
open Verif.Strings

instance : DecidableEq (Except Bool PathInJar) := fun a b => match a, b with
  | .ok x, .ok y => if h : x = y then isTrue (by rw [h]) else isFalse (fun e => h (by cases e; rfl))
  | .error x, .error y => if h : x = y then isTrue (by rw [h]) else isFalse (fun e => h (by cases e; rfl))
  | .ok _, .error _ => isFalse (fun e => by cases e)
  | .error _, .ok _ => isFalse (fun e => by cases e)

theorem of_takeWhile {p : Nat → Bool} {l : List Nat} {x : Nat} (h : x ∈ l.takeWhile p) : p x = true := by
  have := List.all_takeWhile (p := p) (l := l)
  exact (List.all_eq_true.1 this) x h

/-! ## C54: archives -/

theorem jar_bang {loc : Str} {i : Nat} (hj : jar <+: loc) (h : lastIndexOf loc BANG none = some i) : 4 ≤ i := by
  obtain ⟨h1, -⟩ := (C39_lastIndexOf loc BANG).1 i h
  obtain ⟨t, rfl⟩ := hj
  by_cases hi : 4 ≤ i
  · exact hi
  · exfalso
    rcases (by omega : i = 0 ∨ i = 1 ∨ i = 2 ∨ i = 3) with rfl | rfl | rfl | rfl <;> simp [jar, BANG] at h1

theorem resolve_some (b r : Str) : ∃ p, getAbsolutePath b r = some p := by
  obtain ⟨dir, file, h, -⟩ := C36_directory b
  exact ⟨_, C36_resolve b r dir file h⟩

/-- Taking an archive location apart never leaves the strings: the only failures are the two exceptions for a location without '!' and for
a location that is in no archive. -/
theorem C54_archive_inside (expand : Str → Str) (he : ∀ p, jar <+: p → jar <+: expand p) (path : Str) (base : Option Str) :
    fullPathsToZip expand path base ≠ .error true := by
  unfold fullPathsToZip
  split
  · rename_i hp
    have hp := he _ ((starts_iff _ _).1 hp)
    dsimp only
    cases hl : lastIndexOf (expand path) BANG none with
    | none => simp
    | some i =>
      have h4 := jar_bang hp hl
      have hi := (last_split hl).1
      dsimp only
      rw [if_neg (by omega)]
      have e1 : substr (expand path) 4 (i - 4) = some (((expand path).drop 4).take (i - 4)) := by unfold substr; rw [if_pos (by omega)]
      have e2 : tail (expand path) (i + 1) = some ((expand path).drop (i + 1)) := by unfold tail; rw [if_pos (by omega)]
      rw [e1, e2]
      dsimp only
      obtain ⟨p, hpp⟩ := resolve_some (if Strings.compare (expand path) path = 0 then base.getD [] else []) (((expand path).drop 4).take (i - 4))
      rw [hpp]
      simp
  · cases base with
    | none => simp
    | some b =>
      dsimp only
      split
      · rename_i hb
        have hb := (starts_iff _ _).1 hb
        cases hl : lastIndexOf b BANG none with
        | none => simp
        | some i =>
          have h4 := jar_bang hb hl
          have hi := (last_split hl).1
          dsimp only
          rw [if_neg (by omega)]
          have e1 : substr b 4 (i - 4) = some ((b.drop 4).take (i - 4)) := by unfold substr; rw [if_pos (by omega)]
          have e2 : tail b (i + 1) = some (b.drop (i + 1)) := by unfold tail; rw [if_pos (by omega)]
          obtain ⟨p, hpp⟩ := resolve_some (b.drop (i + 1)) path
          rw [e1, e2]
          simp [hpp]
      · simp

theorem bang_at {J I : Str} (h : BANG ∉ I) : lastIndexOf (jar ++ J ++ BANG :: I) BANG none = some (4 + J.length) := by
  rw [last_of_split h]; simp [jar]; omega

/-- A location inside an archive, without a base and without variables, is taken apart at its last '!'. -/
theorem C54_archive_url (expand : Str → Str) (J I : Str) (base : Option Str) (dir file : Str) (hI : BANG ∉ I)
    (he : expand (jar ++ J ++ BANG :: I) = jar ++ J ++ BANG :: I) (hb : Splits (base.getD []) dir file) :
    fullPathsToZip expand (jar ++ J ++ BANG :: I) base = .ok ⟨jar ++ (dir ++ J) ++ BANG :: I, dir ++ J, I⟩ := by
  have hc : Strings.compare (jar ++ J ++ BANG :: I) (jar ++ J ++ BANG :: I) = 0 := (C19_compare _ _).2.2.1.2 rfl
  unfold fullPathsToZip
  rw [if_pos ((starts_iff _ _).2 ⟨J ++ BANG :: I, by simp⟩)]
  dsimp only
  rw [he, bang_at hI]
  dsimp only
  rw [if_neg (by omega)]
  have e1 : substr (jar ++ J ++ BANG :: I) 4 (4 + J.length - 4) = some J := by
    unfold substr
    rw [if_pos (by simp [jar]; omega)]
    simp [jar]
  have e2 : tail (jar ++ J ++ BANG :: I) (4 + J.length + 1) = some I := by
    unfold tail
    rw [if_pos (by simp [jar]; omega)]
    congr 1
    rw [show jar ++ J ++ BANG :: I = (jar ++ J ++ [BANG]) ++ I by simp, show 4 + J.length + 1 = (jar ++ J ++ [BANG]).length by simp [jar]; omega,
      List.drop_left]
  rw [e1, e2]
  dsimp only
  rw [if_pos hc, C36_resolve _ J dir file hb]
  simp

/-- A location relative to a source in an archive stays in that archive, and is resolved against the place of the source in it. -/
theorem C54_archive_relative (expand : Str → Str) (J I path dir file : Str) (hI : BANG ∉ I) (hp : ¬ jar <+: path) (hs : Splits I dir file) :
    fullPathsToZip expand path (some (jar ++ J ++ BANG :: I)) = .ok ⟨jar ++ J ++ BANG :: (dir ++ path), J, dir ++ path⟩ := by
  unfold fullPathsToZip
  rw [if_neg (fun h => hp ((starts_iff _ _).1 h))]
  dsimp only
  rw [if_pos ((starts_iff _ _).2 ⟨J ++ BANG :: I, by simp⟩), bang_at hI]
  dsimp only
  rw [if_neg (by omega)]
  have e1 : substr (jar ++ J ++ BANG :: I) 4 (4 + J.length - 4) = some J := by
    unfold substr
    rw [if_pos (by simp [jar]; omega)]
    simp [jar]
  have e2 : tail (jar ++ J ++ BANG :: I) (4 + J.length + 1) = some I := by
    unfold tail
    rw [if_pos (by simp [jar]; omega)]
    congr 1
    rw [show jar ++ J ++ BANG :: I = (jar ++ J ++ [BANG]) ++ I by simp, show 4 + J.length + 1 = (jar ++ J ++ [BANG]).length by simp [jar]; omega,
      List.drop_left]
  rw [e1, e2]
  simp [C36_resolve I path dir file hs]

def s (t : String) : Str := t.toList.map Char.toNat

/-- the theorems apply -/
example : Splits (s "/base/hrc/proto.hrc") (s "/base/hrc/") (s "proto.hrc") ∧ ¬ Absolute (s "lib/c.hrc") ∧ ¬ fileP <+: s "lib/c.hrc" ∧
    fileLocation (s "lib/c.hrc") (some (s "/base/hrc/proto.hrc")) = some (s "/base/hrc/lib/c.hrc") ∧
    fileLocation (s "C:\\hrc\\c.hrc") (some (s "/base/hrc/proto.hrc")) = some (s "C:\\hrc\\c.hrc") ∧
    fileLocation (s "file:etc/c.hrc") none = some (s "/etc/c.hrc") := by
  refine ⟨⟨by decide, ?_, Or.inr ⟨s "/base/hrc", SLASH, by decide, Or.inl rfl⟩⟩, ?_, by decide, by decide +kernel, by decide +kernel, by decide +kernel⟩
  · have : ∀ c ∈ s "proto.hrc", c ≠ SLASH ∧ c ≠ BACKSLASH := by decide
    intro c hc hs
    rcases hs with h | h
    · exact (this c hc).1 h
    · exact (this c hc).2 h
  · exact (relative_iff _).1 (by decide +kernel)

example : fullPathsToZip id (s "c.hrc") (some (s "jar:/x/common.jar!hrc/proto.hrc")) =
    .ok ⟨s "jar:/x/common.jar!hrc/c.hrc", s "/x/common.jar", s "hrc/c.hrc"⟩ := by decide +kernel

/-- C54 fails: an absolute location of an archive is put behind the base's directory -/
theorem C54_violated_absolute_archive : fullPathsToZip id (s "jar:/opt/common.jar!c.hrc") (some (s "/base/catalog.xml")) =
    .ok ⟨s "jar:/base//opt/common.jar!c.hrc", s "/base//opt/common.jar", s "c.hrc"⟩ := by decide +kernel

/-- C54 fails: another archive beside the archive the base is in is looked for inside the name of the first -/
theorem C54_violated_archive_beside_archive : fullPathsToZip id (s "jar:b.jar!c.hrc") (some (s "jar:/x/a.jar!hrc/proto.hrc")) =
    .ok ⟨s "jar:jar:/x/a.jar!hrc/b.jar!c.hrc", s "jar:/x/a.jar!hrc/b.jar", s "c.hrc"⟩ := by decide +kernel

/-- C54 fails: a name with '!' inside an archive: what is resolved against it leaves the archive -/
theorem C54_violated_bang_in_name : fullPathsToZip id (s "q!r.hrc") (some (s "jar:a.jar!p.hrc")) =
      .ok ⟨s "jar:a.jar!q!r.hrc", s "a.jar", s "q!r.hrc"⟩ ∧
    fullPathsToZip id (s "t.hrc") (some (s "jar:a.jar!q!r.hrc")) = .ok ⟨s "jar:a.jar!q!t.hrc", s "a.jar!q", s "t.hrc"⟩ := by decide +kernel

/-! ## C52: environment variables -/

/-- `t` begins with a reference `$name` (the longest name), with `rest` behind it -/
def BeginsBare (k : Cls) (t name rest : Str) : Prop :=
  t = DOLLAR :: name ++ rest ∧ (∃ c r, name = c :: r ∧ k.alpha c = true ∧ ∀ x ∈ r, k.word x = true) ∧ ∀ x r, rest = x :: r → k.word x = false

/-- `t` begins with a reference `${name}`, with `rest` behind it -/
def BeginsBrace (k : Cls) (t name rest : Str) : Prop :=
  t = DOLLAR :: LBRACE :: name ++ RBRACE :: rest ∧ ∃ c r, name = c :: r ∧ k.alpha c = true ∧ ∀ x ∈ r, k.word x = true

/-- `out` is `t` with every reference replaced by the value of its variable, if it has one; all else is kept, values are not looked at -/
inductive Expanded (Begins : Str → Str → Str → Prop) (env : Str → Option Str) : Str → Str → Prop
  | nil : Expanded Begins env [] []
  | value {t name rest v out : Str} : Begins t name rest → env name = some v → Expanded Begins env rest out → Expanded Begins env t (v ++ out)
  | unset {t pre name rest out : Str} : Begins t name rest → env name = none → t = pre ++ rest → Expanded Begins env rest out →
      Expanded Begins env t (pre ++ out)
  | keep {c : Nat} {r out : Str} : (¬ ∃ name rest, Begins (c :: r) name rest) → Expanded Begins env r out → Expanded Begins env (c :: r) (c :: out)

theorem bare_iff (k : Cls) (t : Str) (m : Ref) : bareRef k t = some m ↔ BeginsBare k t m.name m.rest := by
  constructor
  · intro h
    match t with
    | [] => cases h
    | [_] => cases h
    | d :: c :: r =>
      rw [bareRef] at h
      split at h
      · rename_i hc
        simp only [Bool.and_eq_true, decide_eq_true_eq] at hc
        cases h
        refine ⟨?_, ⟨c, _, rfl, hc.2, fun x hx => ?_⟩, fun x r' hx => ?_⟩
        · rw [hc.1, List.cons_append, List.cons_append, List.takeWhile_append_dropWhile]
        · exact (of_takeWhile hx)
        · have := List.head?_dropWhile_not k.word r
          have hx : r.dropWhile k.word = x :: r' := hx
          rw [hx] at this
          simpa using this
      · cases h
  · rintro ⟨rfl, ⟨c, r, hn, ha, hw⟩, hr⟩
    obtain ⟨name, rest⟩ := m
    dsimp only at *
    subst hn
    rw [List.cons_append, List.cons_append, bareRef]
    rw [if_pos (by simp [ha])]
    have e : ∀ (r rest : Str), (∀ x ∈ r, k.word x = true) → (∀ x t, rest = x :: t → k.word x = false) →
        (r ++ rest).takeWhile k.word = r ∧ (r ++ rest).dropWhile k.word = rest := by
      intro r rest hw hr
      rw [List.takeWhile_append_of_pos hw, List.dropWhile_append_of_pos hw]
      cases rest with
      | nil => simp
      | cons x t => simp [List.takeWhile_cons, List.dropWhile_cons, hr x t rfl]
    rw [(e r rest hw hr).1, (e r rest hw hr).2]

theorem brace_iff (k : Cls) (hb : k.word RBRACE = false) (t : Str) (m : Ref) : braceRef k t = some m ↔ BeginsBrace k t m.name m.rest := by
  constructor
  · intro h
    match t with
    | [] => cases h
    | [_] => cases h
    | [_, _] => cases h
    | d :: b :: c :: r =>
      rw [braceRef] at h
      split at h
      · rename_i hc
        simp only [Bool.and_eq_true, decide_eq_true_eq] at hc
        split at h
        · rename_i e rest hd
          split at h
          · rename_i he
            subst he
            cases h
            refine ⟨?_, ⟨c, _, rfl, hc.2, fun x hx => of_takeWhile hx⟩⟩
            rw [hc.1.1, hc.1.2, ← hd]
            simp
          · cases h
        · cases h
      · cases h
  · rintro ⟨rfl, ⟨c, r, hn, ha, hw⟩⟩
    obtain ⟨name, rest⟩ := m
    dsimp only at *
    subst hn
    simp only [List.cons_append]
    rw [braceRef, if_pos (by simp [ha])]
    have e1 : (r ++ RBRACE :: rest).takeWhile k.word = r := by
      rw [List.takeWhile_append_of_pos hw]; simp [List.takeWhile_cons, hb]
    have e2 : (r ++ RBRACE :: rest).dropWhile k.word = RBRACE :: rest := by
      rw [List.dropWhile_append_of_pos hw]; simp [List.dropWhile_cons, hb]
    rw [e1, e2]
    simp

/-- how a pattern and its specification agree -/
structure Agree (ref : Str → Option Ref) (Begins : Str → Str → Str → Prop) : Prop where
  iff : ∀ t m, ref t = some m ↔ Begins t m.name m.rest
  suffix : ∀ t name rest, Begins t name rest → ∃ pre, t = pre ++ rest ∧ 0 < pre.length

theorem search_spec {ref : Str → Option Ref} {Begins : Str → Str → Str → Prop} (ha : Agree ref Begins) (env : Str → Option Str) (t : Str) :
    (search ref t = none → Expanded Begins env t t) ∧
    (∀ p t' m, search ref t = some (p, t', m) → t = p ++ t' ∧ Begins t' m.name m.rest ∧
      ∀ o, Expanded Begins env t' o → Expanded Begins env t (p ++ o)) := by
  induction t with
  | nil => exact ⟨fun _ => .nil, fun p t' m h => by cases h⟩
  | cons c r ih =>
    rw [search]
    cases hr : ref (c :: r) with
    | some m0 =>
      refine ⟨fun h => (by cases h), fun p t' m h => ?_⟩
      simp only [Option.some.injEq, Prod.mk.injEq] at h
      obtain ⟨rfl, rfl, rfl⟩ := h
      exact ⟨rfl, (ha.iff _ _).1 hr, fun o ho => ho⟩
    | none =>
      have hno : ¬ ∃ name rest, Begins (c :: r) name rest := by
        rintro ⟨name, rest, hb⟩
        have := (ha.iff (c :: r) ⟨name, rest⟩).2 hb
        rw [hr] at this
        cases this
      refine ⟨fun h => ?_, fun p t' m h => ?_⟩
      · simp only [Option.map_eq_none_iff] at h
        exact .keep hno (ih.1 h)
      · simp only [Option.map_eq_some_iff, Prod.mk.injEq] at h
        obtain ⟨⟨p0, t0, m0⟩, hs, rfl, rfl, rfl⟩ := h
        obtain ⟨h1, h2, h3⟩ := ih.2 _ _ _ hs
        exact ⟨by rw [h1]; rfl, h2, fun o ho => .keep hno (h3 o ho)⟩

theorem expandBy_spec {ref : Str → Option Ref} {Begins : Str → Str → Str → Prop} (ha : Agree ref Begins) (env : Str → Option Str) (n : Nat) :
    ∀ t : Str, t.length ≤ n → Expanded Begins env t (expandBy ref env n t) := by
  induction n with
  | zero =>
    intro t ht
    obtain rfl : t = [] := List.length_eq_zero_iff.1 (by omega)
    exact .nil
  | succ n ih =>
    intro t ht
    rw [expandBy]
    cases hs : search ref t with
    | none => exact (search_spec ha env t).1 hs
    | some x =>
      obtain ⟨p, t', m⟩ := x
      obtain ⟨h1, h2, h3⟩ := (search_spec ha env t).2 _ _ _ hs
      obtain ⟨pre, h4, h5⟩ := ha.suffix _ _ _ h2
      have hl : m.rest.length ≤ n := by rw [h1, h4] at ht; simp only [List.length_append] at ht; omega
      have hw : whole t' m = pre := by unfold whole; rw [h4]; simp
      dsimp only
      rw [List.append_assoc]
      apply h3
      cases he : env m.name with
      | none => rw [Option.getD_none, hw]; exact .unset h2 he h4 (ih _ hl)
      | some v => exact .value h2 he (ih _ hl)

theorem expanded_unique {ref : Str → Option Ref} {Begins : Str → Str → Str → Prop} (ha : Agree ref Begins) {env : Str → Option Str} {t o1 o2 : Str}
    (h1 : Expanded Begins env t o1) (h2 : Expanded Begins env t o2) : o1 = o2 := by
  have begins : ∀ {t n1 r1 n2 r2}, Begins t n1 r1 → Begins t n2 r2 → n1 = n2 ∧ r1 = r2 := by
    intro t n1 r1 n2 r2 a b
    have x := (ha.iff t ⟨n1, r1⟩).2 a
    have y := (ha.iff t ⟨n2, r2⟩).2 b
    rw [x] at y
    simp only [Option.some.injEq, Ref.mk.injEq] at y
    exact y
  have not_nil : ∀ {n r}, ¬ Begins [] n r := by
    intro n r h
    obtain ⟨pre, h1, h2⟩ := ha.suffix _ _ _ h
    have := congrArg List.length h1
    simp at this
    omega
  induction h1 generalizing o2 with
  | nil => cases h2 with
    | nil => rfl
    | value hb => exact absurd hb not_nil
    | unset hb => exact absurd hb not_nil
  | value hb hv _ ih => cases h2 with
    | nil => exact absurd hb not_nil
    | value hb' hv' h' =>
      obtain ⟨rfl, rfl⟩ := begins hb hb'
      rw [hv] at hv'; cases hv'; rw [ih h']
    | unset hb' hv' _ _ => obtain ⟨rfl, rfl⟩ := begins hb hb'; rw [hv] at hv'; cases hv'
    | keep hn _ => exact absurd ⟨_, _, hb⟩ hn
  | unset hb hv ht _ ih => cases h2 with
    | nil => exact absurd hb not_nil
    | value hb' hv' _ => obtain ⟨rfl, rfl⟩ := begins hb hb'; rw [hv] at hv'; cases hv'
    | unset hb' hv' ht' h' =>
      obtain ⟨rfl, rfl⟩ := begins hb hb'
      rw [ht] at ht'
      rw [List.append_cancel_right ht', ih h']
    | keep hn _ => exact absurd ⟨_, _, hb⟩ hn
  | keep hn _ ih => cases h2 with
    | value hb _ _ => exact absurd ⟨_, _, hb⟩ hn
    | unset hb _ _ _ => exact absurd ⟨_, _, hb⟩ hn
    | keep _ h' => rw [ih h']

theorem agree_bare (k : Cls) : Agree (bareRef k) (BeginsBare k) :=
  ⟨bare_iff k, fun t name rest h => ⟨DOLLAR :: name, by rw [h.1], by simp⟩⟩

theorem agree_brace (k : Cls) (hb : k.word RBRACE = false) : Agree (braceRef k) (BeginsBrace k) :=
  ⟨brace_iff k hb, fun t name rest h => ⟨DOLLAR :: LBRACE :: name ++ [RBRACE], by rw [h.1]; simp, by simp⟩⟩

/-- C52: `expandSpecialEnvironment` replaces exactly the references `$name`: the result is the one the specification allows, and it always ends. -/
theorem C52_special (k : Cls) (env : Str → Option Str) (t out : Str) :
    expandSpecial k env t = out ↔ Expanded (BeginsBare k) env t out := by
  have h := expandBy_spec (agree_bare k) env t.length t (Nat.le_refl _)
  exact ⟨fun e => e ▸ h, fun e => expanded_unique (agree_bare k) h e⟩

/-- C52: `expandEnvironment` does it twice: `${name}` first, then `$name` in the result. -/
theorem C52_environment_partial (k : Cls) (hb : k.word RBRACE = false) (env : Str → Option Str) (t out : Str) :
    expandEnvironment k env t = out ↔ ∃ mid, Expanded (BeginsBrace k) env t mid ∧ Expanded (BeginsBare k) env mid out := by
  have h1 := expandBy_spec (agree_brace k hb) env t.length t (Nat.le_refl _)
  have h2 := expandBy_spec (agree_bare k) env _ (expandBy (braceRef k) env t.length t) (Nat.le_refl _)
  have e : expandEnvironment k env t = expandBy (bareRef k) env (expandBy (braceRef k) env t.length t).length (expandBy (braceRef k) env t.length t) := by
    unfold expandEnvironment
    cases t with
    | nil => rfl
    | cons c r => rfl
  rw [e]
  constructor
  · rintro rfl; exact ⟨_, h1, h2⟩
  · rintro ⟨mid, a, b⟩
    rw [expanded_unique (agree_brace k hb) h1 a] at h2 ⊢
    exact expanded_unique (agree_bare k) h2 b

/-- nothing to replace, nothing changed -/
theorem C52_unchanged (k : Cls) (env : Str → Option Str) (t : Str) (h : DOLLAR ∉ t) : expandEnvironment k env t = t ∧ expandSpecial k env t = t := by
  have s1 : ∀ (ref : Str → Option Ref) (t : Str), DOLLAR ∉ t → (∀ u, ref u ≠ none → ∃ r, u = DOLLAR :: r) → search ref t = none := by
    intro ref t
    induction t with
    | nil => intro _ _; rfl
    | cons c r ih =>
      intro hd hr
      rw [search]
      cases hc : ref (c :: r) with
      | some m =>
        obtain ⟨r', hr'⟩ := hr (c :: r) (by rw [hc]; simp)
        exact absurd (by rw [hr']; simp) hd
      | none => rw [ih (fun hm => hd (by simp [hm])) hr]; rfl
  have hbare : ∀ u, bareRef k u ≠ none → ∃ r, u = DOLLAR :: r := by
    intro u hu
    cases hm : bareRef k u with
    | none => exact absurd hm hu
    | some m => exact ⟨_, ((bare_iff k u m).1 hm).1⟩
  have hbrace : ∀ u, braceRef k u ≠ none → ∃ r, u = DOLLAR :: r := by
    intro u hu
    match u, hu with
    | d :: b :: c :: r, hu =>
      by_cases hd : d = DOLLAR
      · exact ⟨_, by rw [hd]⟩
      · exact absurd (by simp [braceRef, hd]) hu
    | [], hu => exact absurd rfl hu
    | [_], hu => exact absurd rfl hu
    | [_, _], hu => exact absurd rfl hu
  have ex : ∀ ref : Str → Option Ref, (∀ u, ref u ≠ none → ∃ r, u = DOLLAR :: r) → ∀ n, expandBy ref env n t = t := by
    intro ref hr n
    cases n with
    | zero => rfl
    | succ n => rw [expandBy, s1 ref t h hr]
  constructor
  · unfold expandEnvironment
    split
    · rename_i he; simp at he; rw [he]
    · dsimp only; rw [ex _ hbrace, ex _ hbare]
  · exact ex _ hbare _

/-- ASCII letters; letters, digits and '_' -/
def asciiCls : Cls := ⟨fun c => decide ((65 ≤ c ∧ c ≤ 90) ∨ (97 ≤ c ∧ c ≤ 122)), fun c => decide ((65 ≤ c ∧ c ≤ 90) ∨ (97 ≤ c ∧ c ≤ 122) ∨ (48 ≤ c ∧ c ≤ 57) ∨ c = 95)⟩

def vars (t : Str) : Option Str := if t = s "HOME" then some (s "/home/u") else if t = s "A" then some (s "$HOME") else if t = s "B" then some (s "bc") else none

example : expandEnvironment asciiCls vars (s "${HOME}/x/$HOME/$NO/${NO}/$1") = s "/home/u/x//home/u/$NO/${NO}/$1" := by decide +kernel

/-- C52 fails: a value is looked at again (`A` = "$HOME") -/
theorem C52_violated_value_expanded : expandEnvironment asciiCls vars (s "${A}") = s "/home/u" ∧ vars (s "A") = some (s "$HOME") := by decide +kernel

/-- C52 fails, even for values without '$': in `$HOME${B}` the value of `B` becomes part of the name before it, and `HOME` is not replaced -/
theorem C52_violated_name_grows : expandEnvironment asciiCls vars (s "$HOME${B}") = s "$HOMEbc" ∧ vars (s "HOME") = some (s "/home/u") := by decide +kernel

/-- the expansion used for archives keeps the prefix "jar:" (hypothesis of `C54_archive_inside`) -/
theorem special_keeps_jar (k : Cls) (env : Str → Option Str) (p : Str) (h : jar <+: p) : jar <+: expandSpecial k env p := by
  obtain ⟨r, rfl⟩ := h
  have step : ∀ (c : Nat) (r out : Str), c ≠ DOLLAR → Expanded (BeginsBare k) env (c :: r) out → ∃ o, out = c :: o ∧ Expanded (BeginsBare k) env r o := by
    intro c r out hc h
    cases h with
    | value hb _ _ => exact absurd (List.cons.inj hb.1).1 hc
    | unset hb _ _ _ => exact absurd (List.cons.inj hb.1).1 hc
    | keep _ h => exact ⟨_, rfl, h⟩
  have h := (C52_special k env (jar ++ r) _).1 rfl
  obtain ⟨o1, e1, h1⟩ := step _ _ _ (by decide) h
  obtain ⟨o2, e2, h2⟩ := step _ _ _ (by decide) h1
  obtain ⟨o3, e3, h3⟩ := step _ _ _ (by decide) h2
  obtain ⟨o4, e4, h4⟩ := step _ _ _ (by decide) h3
  exact ⟨o4, by rw [e1, e2, e3, e4]; rfl⟩

end Verif.Io
