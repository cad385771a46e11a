import Verif.RegExp.Compiled
import Verif.Strings.Model
/-!
# C87: the expression tester of the console tool (`colorer -r`)

Models /repo/tools/colorer/ConsoleTools.cpp 119-149 (`RETest`) on top of the compiler (`RegExp.setRE`) and the matcher (`RegExp.parse`).

The input is a list of bytes. `fgets`, `strtok` are those of C: a line is at most 254 bytes with its `\n`; the C string in the array ends at the first
0. `dec` is the conversion `UnicodeString(text)` of the string library (any function). Texts are printed as they are; what is said is a list of `Say`.
The array `text` is not initialised: before the first successful `fgets` its first character is not determined (`none`).
The compiler is used with a new tree for every expression, `setRELow` resets the two change flags (cregexp.cpp:92), and each tree is matched once: the
object is always that of `Obj.new`.
-/
namespace Verif.Tool.Tester
open Verif.Strings (Str)
open Verif.RegExp

/-- `fgets` with room for `n` bytes before the closing 0: what is stored, what is left -/
def readLine : Nat → Str → Str × Str
  | 0, l => ([], l)
  | _ + 1, [] => ([], [])
  | n + 1, c :: l => if c = 10 then ([10], l) else (c :: (readLine n l).1, (readLine n l).2)

/-- `fgets(text, sizeof(text), stdin)`; `none`: the end of the input -/
def fgets : Str → Option (Str × Str)
  | [] => none
  | l => some (readLine 254 l)

/-- the C string in an array -/
def cstr (l : Str) : Str := l.takeWhile (· ≠ 0)

def isBreak (c : Nat) : Bool := c = 13 || c = 10

/-- the array as a C string after `strtok(text, "\r\n")`: nothing is changed if there is no token; otherwise the string is cut behind the first one -/
def strtok (l : Str) : Str :=
  match l.dropWhile isBreak with
  | [] => l
  | t => l.takeWhile isBreak ++ t.takeWhile (fun c => !isBreak c)

inductive Say where
  /-- `"\nregexp:"` -/
  | regexp
  /-- `"exprn:"` -/
  | exprn
  /-- "ok" or "error", and the groups -/
  | verdict (ok : Bool) (groups : List (Int × Int))
deriving DecidableEq, Repr

structure St where
  input : Str
  /-- `text[0]` -/
  first : Option Nat
  /-- `match` and `match.cMatch` -/
  mt    : Matches
  cM    : Nat
  said  : List Say

/-- where a round of the loop leads: `stuck`: a match that does not return, or a read outside; `undefined`: the undetermined `text[0]` is looked at -/
inductive Next where
  | again (s : St) | ended (s : St) | stuck | undefined

/-- `while (text[0])` -/
def while_ (s : St) : Next :=
  match s.first with
  | none => .undefined
  | some c => if c = 0 then .ended s else .again s

/-- what the tool holds about the compiler, the characters, the conversion -/
structure Cfg where
  x : Ctx
  chars : Chars
  dec : Str → Str

/-- the call `re.parse(&dtext, &match)` (1482-1499) -/
def argsOf (t : Str) : Args := ⟨t, 0, t.length, 0, none, none⟩

/-- `match.cMatch` after the call: untouched if the quick check refuses (1430-1437) -/
def countAfter (c : Cfg) (ex : Expr) (t : Str) (old : Nat) : Nat :=
  if quickCheck (envOf c.chars ex (argsOf t)) (firstOf ex.body) 0 = some false then old else ex.cMatch

/-- lines 140-147 -/
def test (c : Cfg) (fuel : Nat) (ex : Expr) (s : St) : Next :=
  let s1 : St := { s with said := s.said ++ [.exprn] }
  match fgets s1.input with
  | none => while_ s1
  | some (l, rest) =>
    let b := strtok (cstr l)
    match parse c.chars ex fuel Obj.new (argsOf (c.dec b)) s1.mt with
    | none => .stuck
    | some out =>
      match out.res with
      | .oob => .stuck
      | .ret ok =>
        let n := countAfter c ex (c.dec b) s1.cM
        while_ ⟨rest, some (b.headD 0), out.m, n, s1.said ++ [.verdict ok ((List.range n).map fun i => (out.m.s i, out.m.e i))]⟩

/-- one round of the loop (126-148) -/
def round (c : Cfg) (fuel : Nat) (s : St) : Next :=
  let s1 : St := { s with said := s.said ++ [.regexp] }
  match fgets s1.input with
  | none => while_ s1
  | some (l, rest) =>
    let b := strtok (cstr l)
    let s2 : St := { s1 with input := rest, first := some (b.headD 0) }
    match setRE c.x (c.dec b) with
    | some (.ok ex) => test c fuel ex s2
    | _ => while_ s2

/-- `n` rounds -/
def rounds (c : Cfg) (fuel : Nat) : Nat → St → Next
  | 0, s => .again s
  | n + 1, s => match round c fuel s with
    | .again s1 => rounds c fuel n s1
    | r => r

/-- the beginning (121-124): `match {}` is all zero -/
def start (input : Str) : St := ⟨input, none, ⟨fun _ => 0, fun _ => 0, fun _ => 0, fun _ => 0⟩, 0, []⟩

/-! ## Specification -/

/-- a line that fits into the array: not empty, no line ends and no 0 in it, at most 253 bytes -/
def LineOk (b : Str) : Prop := b ≠ [] ∧ (∀ c ∈ b, c ≠ 0 ∧ c ≠ 10 ∧ c ≠ 13) ∧ b.length ≤ 253

/-- one test: the expression and the text as typed, and the expression they stand for -/
structure Test where
  typed : Str
  text  : Str
  sp : Text
  e  : Re
  fl : Text

/-- the expression is one C56 speaks of -/
structure Test.Ok (c : Cfg) (t : Test) : Prop where
  line1 : LineOk t.typed
  line2 : LineOk t.text
  reads : c.dec t.typed = written t.sp t.e t.fl
  space : ∀ k ∈ t.sp, c.x.isSpace k = true
  flags : 47 ∉ t.fl
  right : t.e.Ok (c.x.withFlags t.fl) ⟨1, []⟩ []
  frag  : t.e.frag false = true
  plain : t.e.noMark = true
  multi : 109 ∉ t.fl
  icase : 105 ∈ t.fl → CaseOn c.chars (fun k => k ∈ c.dec t.text ∨ k ∈ t.e.letters)

/-- what is typed: a test, or a line that is no expression -/
inductive Entry where
  | test (t : Test)
  | wrong (typed : Str)

def Entry.Ok (c : Cfg) : Entry → Prop
  | .test t => t.Ok c
  | .wrong b => LineOk b ∧ ∃ err, setRE c.x (c.dec b) = some (.error err)

def typedIn : List Entry → Str
  | [] => []
  | .test t :: ts => t.typed ++ 10 :: (t.text ++ 10 :: typedIn ts)
  | .wrong b :: ts => b ++ 10 :: typedIn ts

/-- the verdict on a test is right: "ok" with the bounds of a text of the expression at the beginning, "error" only if there is none -/
def Right (c : Cfg) (t : Test) (ok : Bool) (groups : List (Int × Int)) : Prop :=
  ∃ ex, setRE c.x (written t.sp t.e t.fl) = some (.ok ex) ∧
    (ok = true → groups.length = (t.e.after ⟨1, []⟩).cMatch ∧ ∃ q, groups.head? = some (0, q) ∧
      t.e.L (c.x.withFlags t.fl) (envOf c.chars ex (argsOf (c.dec t.text))) 0 q) ∧
    (ok = false → ∀ q, ¬ t.e.L (c.x.withFlags t.fl) (envOf c.chars ex (argsOf (c.dec t.text))) 0 q)

/-- the conversation about the tests; after a line that is no expression the tool asks again -/
inductive Talk (c : Cfg) : List Entry → List Say → Prop
  | nil : Talk c [] []
  | wrong {b : Str} {ts : List Entry} {said : List Say} : Talk c ts said → Talk c (.wrong b :: ts) (.regexp :: said)
  | cons {t : Test} {ts : List Entry} {ok : Bool} {g : List (Int × Int)} {said : List Say} : Right c t ok g → Talk c ts said →
      Talk c (.test t :: ts) (.regexp :: .exprn :: .verdict ok g :: said)

/-! ## Proofs -/

theorem readLine_line (b : Str) : ∀ n, (∀ c ∈ b, c ≠ 10) → b.length < n → ∀ r, readLine n (b ++ 10 :: r) = (b ++ [10], r) := by
  induction b with
  | nil =>
    intro n _ hn r
    cases n with
    | zero => simp at hn
    | succ n => simp [readLine]
  | cons c b ih =>
    intro n hb hn r
    cases n with
    | zero => simp at hn
    | succ n =>
      have := ih n (fun k hk => hb k (List.mem_cons_of_mem _ hk)) (by simpa using hn) r
      rw [List.cons_append, readLine, if_neg (hb c (by simp)), this]
      rfl

theorem fgets_line {b : Str} (h : LineOk b) (r : Str) : fgets (b ++ 10 :: r) = some (b ++ [10], r) := by
  obtain ⟨h0, h1, h2⟩ := h
  have := readLine_line b 254 (fun c hc => (h1 c hc).2.1) (by omega) r
  cases b with
  | nil => exact absurd rfl h0
  | cons c b => rw [← this]; rfl

theorem takeWhile_same {p : Nat → Bool} : ∀ {l : Str}, (∀ c ∈ l, p c = true) → l.takeWhile p = l
  | [], _ => rfl
  | c :: l, h => by rw [List.takeWhile_cons, if_pos (h c (by simp)), takeWhile_same fun k hk => h k (List.mem_cons_of_mem _ hk)]

theorem cstr_line {b : Str} (h : LineOk b) : cstr (b ++ [10]) = b ++ [10] := by
  refine takeWhile_same fun c hc => ?_
  rcases List.mem_append.1 hc with h1 | h1
  · simpa using (h.2.1 c h1).1
  · rw [List.mem_singleton.1 h1]; decide

theorem strtok_line {b : Str} (h : LineOk b) : strtok (b ++ [10]) = b := by
  obtain ⟨h0, h1, -⟩ := h
  have hb : ∀ c ∈ b, isBreak c = false := fun c hc => by simp [isBreak, (h1 c hc).2.1, (h1 c hc).2.2]
  cases b with
  | nil => exact absurd rfl h0
  | cons c b =>
    have e1 : (c :: b ++ [10]).dropWhile isBreak = c :: b ++ [10] := by
      rw [List.cons_append, List.dropWhile_cons, if_neg (by rw [hb c (by simp)]; decide)]
    have e2 : (c :: b ++ [10]).takeWhile isBreak = [] := by
      rw [List.cons_append, List.takeWhile_cons, if_neg (by rw [hb c (by simp)]; decide)]
    have e3 : ∀ l : Str, (∀ k ∈ l, isBreak k = false) → (l ++ [10]).takeWhile (fun k => !isBreak k) = l := by
      intro l
      induction l with
      | nil => intro _; rfl
      | cons k l ih =>
        intro hl
        rw [List.cons_append, List.takeWhile_cons, if_pos (by rw [hl k (by simp)]; rfl), ih fun d hd => hl d (List.mem_cons_of_mem _ hd)]
    unfold strtok
    rw [e1, e2]
    show [] ++ (c :: b ++ [10]).takeWhile (fun k => !isBreak k) = c :: b
    rw [List.nil_append, e3 _ hb]

/-- a call that succeeds has passed the quick check -/
theorem quick_of_ok {chars : Chars} {ex : Expr} {fuel : Nat} {a : Args} {mt : Matches} {out : Out} (ha : a.moves = none)
    (h : parse chars ex fuel Obj.new a mt = some out) (hr : out.res = .ret true) : quickCheck (envOf chars ex a) (firstOf ex.body) a.pos ≠ some false := by
  intro hq
  unfold parse at h
  dsimp only at h
  rw [ha] at h
  by_cases hok : ex.ok = false
  · rw [if_pos hok] at h
    injection h with h
    rw [← h] at hr
    cases hr
  · rw [if_neg hok, if_neg (by decide), hq] at h
    injection h with h
    rw [← h] at hr
    cases hr

theorem test_right (c : Cfg) (hx : CtxOk c.x) (t : Test) (ht : t.Ok c) : ∃ k, ∀ fuel, k ≤ fuel → ∀ (mt : Matches) (cM : Nat), ∃ ex out ok,
    setRE c.x (written t.sp t.e t.fl) = some (.ok ex) ∧ parse c.chars ex fuel Obj.new (argsOf (c.dec t.text)) mt = some out ∧ out.res = .ret ok ∧
    Right c t ok ((List.range (countAfter c ex (c.dec t.text) cM)).map fun i => (out.m.s i, out.m.e i)) := by
  obtain ⟨ex, hs, hm⟩ := C56_matches_what_is_written_partial hx c.chars ht.space ht.flags ht.right ht.frag ht.plain ht.multi
  obtain ⟨ex', hs', hc, -⟩ := C56_accepted hx ht.space ht.flags ht.right
  have hee : ex' = ex := by rw [hs] at hs'; injection hs' with e; injection e with e; exact e.symm
  rw [hee] at hc
  have hpos : 0 < ex.cMatch := (C55_inside_the_tables _ _ _ hs).2.1
  obtain ⟨ex2, hs2, h2⟩ := C56_no_memory hx c.chars ht.space ht.flags ht.right ht.plain
  have hee2 : ex2 = ex := by rw [hs] at hs2; injection hs2 with e; injection e with e; exact e.symm
  rw [hee2] at h2
  obtain ⟨k, hk⟩ := hm Obj.new (argsOf (c.dec t.text)) ⟨fun _ => 0, fun _ => 0, fun _ => 0, fun _ => 0⟩ (Int.le_refl 0)
    (Int.natCast_nonneg _) (Int.le_refl _) trivial ht.icase rfl rfl
  refine ⟨k, fun fuel hf mt cM => ?_⟩
  obtain ⟨o0, ho0, hd⟩ := hk fuel hf
  have hsame := h2 [] Obj.new Obj.new rfl fuel (argsOf (c.dec t.text)) mt ⟨fun _ => 0, fun _ => 0, fun _ => 0, fun _ => 0⟩
  rw [ho0] at hsame
  cases ho : parse c.chars ex fuel Obj.new (argsOf (c.dec t.text)) mt with
  | none => rw [ho] at hsame; exact absurd hsame id
  | some out =>
    rw [ho] at hsame
    obtain ⟨hr, hg⟩ := hsame
    rcases hd with ⟨d1, d2, d3, d4, d5⟩ | ⟨d1, d2⟩
    · have hrt : out.res = .ret true := hr.trans d1
      have hq := quick_of_ok (by rfl) ho hrt
      have hn : countAfter c ex (c.dec t.text) cM = ex.cMatch := if_neg hq
      have hs0 : o0.m.s 0 = 0 := d4 rfl
      refine ⟨ex, out, true, hs, ho, hrt, ex, hs, fun _ => ?_, fun h => absurd h (by decide)⟩
      rw [hn]
      refine ⟨by rw [List.length_map, List.length_range, hc], o0.m.e 0, ?_, ?_⟩
      · obtain ⟨n, hn⟩ : ∃ n, ex.cMatch = n + 1 := ⟨ex.cMatch - 1, by omega⟩
        have := (hg hrt).1 0 hpos
        rw [hn, List.range_succ_eq_map, List.map_cons, List.head?_cons, this.1, this.2, hs0]
      · rw [hs0] at d2; exact d2
    · have hrt : out.res = .ret false := hr.trans d1
      exact ⟨ex, out, false, hs, ho, hrt, ex, hs, fun h => absurd h (by decide),
        fun _ q => d2 0 q (Int.le_refl 0) (Int.natCast_nonneg _) (fun _ => rfl)⟩

/-- C87: the tests. Any number of lines that are no expressions and of tests, each an expression of the kind of C56 (without marks) and a text, each a line of at most 253 bytes that is not
empty: the tool asks for the expression, asks for the text, and gives the right verdict on each pair, whatever was tested before.
Missing: expressions outside the fragment of C56, empty and longer lines (violated below), what happens at the end of the input (violated below). -/
theorem C87_every_test_gets_the_right_verdict_partial (c : Cfg) (hx : CtxOk c.x) (ts : List Entry) (h : ∀ t ∈ ts, t.Ok c) :
    ∃ k, ∀ fuel, k ≤ fuel → ∃ s, rounds c fuel ts.length (start (typedIn ts)) = .again s ∧ s.input = [] ∧ Talk c ts s.said := by
  have key : ∀ (ts : List Entry), (∀ t ∈ ts, t.Ok c) → ∃ k, ∀ fuel, k ≤ fuel → ∀ (mt : Matches) (cM : Nat) (f : Option Nat) (said : List Say),
      ∃ s more, rounds c fuel ts.length ⟨typedIn ts, f, mt, cM, said⟩ = .again s ∧ s.input = [] ∧ s.said = said ++ more ∧ Talk c ts more := by
    intro ts
    induction ts with
    | nil => exact fun _ => ⟨0, fun fuel _ mt cM f said => ⟨_, [], rfl, rfl, by simp, .nil⟩⟩
    | cons t ts ih =>
      intro h
      obtain ⟨k1, hk1⟩ := ih fun u hu => h u (List.mem_cons_of_mem _ hu)
      cases t with
      | wrong b =>
        obtain ⟨hl, err, he⟩ := h (.wrong b) (by simp)
        refine ⟨k1, fun fuel hf mt cM f said => ?_⟩
        obtain ⟨c0, r0, hb, hc0⟩ : ∃ c0 r0, b = c0 :: r0 ∧ c0 ≠ 0 := by
          obtain ⟨h0, h1, -⟩ := hl
          cases hb : b with
          | nil => exact absurd hb h0
          | cons c0 r0 => exact ⟨c0, r0, rfl, (h1 c0 (by rw [hb]; simp)).1⟩
        have hround : round c fuel ⟨typedIn (.wrong b :: ts), f, mt, cM, said⟩ = .again ⟨typedIn ts, some c0, mt, cM, said ++ [.regexp]⟩ := by
          unfold round
          dsimp only
          rw [show typedIn (.wrong b :: ts) = b ++ 10 :: typedIn ts from rfl, fgets_line hl]
          dsimp only
          rw [cstr_line hl, strtok_line hl, he]
          dsimp only
          rw [hb]
          exact if_neg hc0
        obtain ⟨s, more, e1, e2, e3, e4⟩ := hk1 fuel hf mt cM (some c0) (said ++ [.regexp])
        refine ⟨s, .regexp :: more, ?_, e2, ?_, .wrong e4⟩
        · show rounds c fuel (ts.length + 1) _ = _
          rw [rounds, hround]
          exact e1
        · rw [e3]; simp
      | test t =>
      have ht : t.Ok c := h (.test t) (by simp)
      obtain ⟨k2, hk2⟩ := test_right c hx t ht
      refine ⟨max k1 k2, fun fuel hf mt cM f said => ?_⟩
      obtain ⟨ex, out, ok, hs, hp, hr, hR⟩ := hk2 fuel (by omega) mt cM
      obtain ⟨c0, r0, hb, hc0⟩ : ∃ c0 r0, t.text = c0 :: r0 ∧ c0 ≠ 0 := by
        obtain ⟨h0, h1, -⟩ := ht.line2
        cases hb : t.text with
        | nil => exact absurd hb h0
        | cons c0 r0 => exact ⟨c0, r0, rfl, (h1 c0 (by rw [hb]; simp)).1⟩
      generalize hg : (List.range (countAfter c ex (c.dec t.text) cM)).map (fun i => (out.m.s i, out.m.e i)) = g at hR
      have hround : round c fuel ⟨typedIn (.test t :: ts), f, mt, cM, said⟩ =
          .again ⟨typedIn ts, some c0, out.m, countAfter c ex (c.dec t.text) cM, said ++ [.regexp] ++ [.exprn] ++ [.verdict ok g]⟩ := by
        unfold round
        dsimp only
        rw [show typedIn (.test t :: ts) = t.typed ++ 10 :: (t.text ++ 10 :: typedIn ts) from rfl, fgets_line ht.line1]
        dsimp only
        rw [cstr_line ht.line1, strtok_line ht.line1, ht.reads, hs]
        dsimp only
        unfold test
        dsimp only
        rw [fgets_line ht.line2]
        dsimp only
        rw [cstr_line ht.line2, strtok_line ht.line2, hp]
        dsimp only
        rw [hr]
        dsimp only
        rw [hg, hb]
        exact if_neg hc0
      obtain ⟨s, more, e1, e2, e3, e4⟩ := hk1 fuel (by omega) out.m (countAfter c ex (c.dec t.text) cM) (some c0)
        (said ++ [.regexp] ++ [.exprn] ++ [.verdict ok g])
      refine ⟨s, .regexp :: .exprn :: .verdict ok g :: more, ?_, e2, ?_, .cons hR e4⟩
      · show rounds c fuel (ts.length + 1) _ = _
        rw [rounds, hround]
        exact e1
      · rw [e3]; simp
  obtain ⟨k, hk⟩ := key ts h
  refine ⟨k, fun fuel hf => ?_⟩
  obtain ⟨s, more, h1, h2, h3, h4⟩ := hk fuel hf _ 0 none []
  refine ⟨s, h1, h2, ?_⟩
  rw [h3]; exact h4

/-! ## The end of the conversation -/

theorem readLine_mem (n : Nat) : ∀ (l : Str), (∀ c ∈ (readLine n l).1, c ∈ l) ∧ (∀ c ∈ (readLine n l).2, c ∈ l) := by
  induction n with
  | zero => intro l; exact ⟨fun c hc => absurd hc (by simp [readLine]), fun c hc => hc⟩
  | succ n ih =>
    intro l
    cases l with
    | nil => exact ⟨fun c hc => hc, fun c hc => hc⟩
    | cons d l =>
      rw [readLine]
      by_cases hd : d = 10
      · rw [if_pos hd]
        exact ⟨fun c hc => by rw [List.mem_singleton.1 hc, hd]; simp, fun c hc => List.mem_cons_of_mem _ hc⟩
      · rw [if_neg hd]
        refine ⟨fun c hc => ?_, fun c hc => List.mem_cons_of_mem _ ((ih l).2 c hc)⟩
        rcases List.mem_cons.1 hc with h | h
        · rw [h]; simp
        · exact List.mem_cons_of_mem _ ((ih l).1 c h)

/-- a line that was read begins with its first byte also after `strtok` -/
theorem strtok_head (l : Str) : (strtok l).headD 0 = l.headD 0 := by
  unfold strtok
  split
  · rfl
  · cases l with
    | nil => rfl
    | cons c l =>
      by_cases hc : isBreak c = true
      · rw [List.takeWhile_cons, if_pos hc]; rfl
      · rw [List.takeWhile_cons, if_neg hc, List.dropWhile_cons, if_neg hc]
        simp [hc]

theorem fgets_head {l a r : Str} (h : fgets l = some (a, r)) : (cstr a).headD 0 = l.headD 0 ∧ (∀ c ∈ r, c ∈ l) ∧ l ≠ [] := by
  cases l with
  | nil => cases h
  | cons d l =>
    injection h with h
    have ha : a = (readLine 254 (d :: l)).1 := by rw [h]
    have hr : r = (readLine 254 (d :: l)).2 := by rw [h]
    refine ⟨?_, ?_, by simp⟩
    · rw [ha, readLine]
      by_cases hd : d = 10
      · rw [if_pos hd, hd]; rfl
      · rw [if_neg hd]
        dsimp only
        unfold cstr
        rw [List.takeWhile_cons]
        by_cases h0 : d = 0
        · rw [h0]; rfl
        · rw [if_pos (by simpa using h0)]; rfl
    · rw [hr]; exact (readLine_mem 254 (d :: l)).2

/-- no byte 0 is left, and what was read does not begin with one -/
def Quiet (s : St) : Prop := 0 ∉ s.input ∧ ∀ c, s.first = some c → c ≠ 0

theorem while_quiet {s : St} (h : ∀ c, s.first = some c → c ≠ 0) : while_ s = .again s ∨ while_ s = .undefined := by
  unfold while_
  cases hs : s.first with
  | none => exact .inr rfl
  | some c => exact .inl (if_neg (h c hs))

theorem line_quiet {l a r : Str} (h : fgets l = some (a, r)) (h0 : 0 ∉ l) : 0 ∉ r ∧ (strtok (cstr a)).headD 0 ≠ 0 := by
  obtain ⟨h1, h2, h3⟩ := fgets_head h
  refine ⟨fun hr => h0 (h2 0 hr), ?_⟩
  rw [strtok_head, h1]
  cases l with
  | nil => exact absurd rfl h3
  | cons d l => exact fun hd => h0 (by rw [← (show d = 0 from hd)]; simp)

theorem test_quiet {c : Cfg} {fuel : Nat} {ex : Expr} {s : St} (h : Quiet s) :
    (∀ s', test c fuel ex s ≠ .ended s') ∧ ∀ s', test c fuel ex s = .again s' → Quiet s' := by
  have key : ∀ s1 : St, Quiet s1 → (∀ s', while_ s1 ≠ .ended s') ∧ ∀ s', while_ s1 = .again s' → Quiet s' := by
    intro s1 h1
    rcases while_quiet h1.2 with e | e
    · rw [e]
      exact ⟨fun s' h => (by cases h), fun s' h => (by injection h with h; rw [← h]; exact h1)⟩
    · rw [e]; exact ⟨fun s' h => (by cases h), fun s' h => (by cases h)⟩
  unfold test
  dsimp only
  cases hf : fgets s.input with
  | none => exact key _ h
  | some p =>
    obtain ⟨a, r⟩ := p
    dsimp only
    obtain ⟨q1, q2⟩ := line_quiet hf h.1
    cases parse c.chars ex fuel Obj.new (argsOf (c.dec (strtok (cstr a)))) s.mt with
    | none => exact ⟨fun s' h => (by cases h), fun s' h => (by cases h)⟩
    | some out =>
      dsimp only
      cases out.res with
      | oob => exact ⟨fun s' h => (by cases h), fun s' h => (by cases h)⟩
      | ret ok => exact key _ ⟨q1, fun d hd => by injection hd with hd; rw [← hd]; exact q2⟩

theorem round_quiet {c : Cfg} {fuel : Nat} {s : St} (h : Quiet s) :
    (∀ s', round c fuel s ≠ .ended s') ∧ ∀ s', round c fuel s = .again s' → Quiet s' := by
  have key : ∀ s1 : St, Quiet s1 → (∀ s', while_ s1 ≠ .ended s') ∧ ∀ s', while_ s1 = .again s' → Quiet s' := by
    intro s1 h1
    rcases while_quiet h1.2 with e | e
    · rw [e]
      exact ⟨fun s' h => (by cases h), fun s' h => (by injection h with h; rw [← h]; exact h1)⟩
    · rw [e]; exact ⟨fun s' h => (by cases h), fun s' h => (by cases h)⟩
  unfold round
  dsimp only
  cases hf : fgets s.input with
  | none => exact key _ h
  | some p =>
    obtain ⟨a, r⟩ := p
    dsimp only
    obtain ⟨q1, q2⟩ := line_quiet hf h.1
    have hq : Quiet ⟨r, some ((strtok (cstr a)).headD 0), s.mt, s.cM, s.said ++ [.regexp]⟩ :=
      ⟨q1, fun d hd => by injection hd with hd; rw [← hd]; exact q2⟩
    cases setRE c.x (c.dec (strtok (cstr a))) with
    | none => exact key _ hq
    | some r1 => cases r1 with
      | error e => exact key _ hq
      | ok ex => exact test_quiet hq

/-- C87 is violated: the tool never ends. For every input without a byte 0 (whatever was typed: no empty line and no end of the input stops it), after any
number of rounds the loop has not been left: an empty line leaves "\n" in the array. -/
theorem C87_violated_never_ends (c : Cfg) (fuel n : Nat) (input : Str) (h : 0 ∉ input) : ∀ s, rounds c fuel n (start input) ≠ .ended s := by
  have key : ∀ (n : Nat) (s : St), Quiet s → ∀ s', rounds c fuel n s ≠ .ended s' := by
    intro n
    induction n with
    | zero => intro s _ s' h; cases h
    | succ n ih =>
      intro s hs s' hr
      rw [rounds] at hr
      have := round_quiet (c := c) (fuel := fuel) hs
      cases he : round c fuel s with
      | again s1 => rw [he] at hr; exact ih s1 (this.2 s1 he) s' hr
      | ended s1 => exact this.1 s1 he
      | stuck => rw [he] at hr; cases hr
      | undefined => rw [he] at hr; cases hr
  exact key n _ ⟨h, fun d hd => by cases hd⟩

/-- at the end of the input it asks for an expression again and again -/
theorem C87_violated_end_of_input (c : Cfg) (fuel n : Nat) (s : St) (hi : s.input = []) (d : Nat) (hf : s.first = some d) (hd : d ≠ 0) :
    rounds c fuel n s = .again { s with said := s.said ++ List.replicate n .regexp } := by
  induction n generalizing s with
  | zero => simp [rounds]
  | succ n ih =>
    have hr : round c fuel s = .again { s with said := s.said ++ [.regexp] } := by
      unfold round
      dsimp only
      rw [hi]
      show while_ _ = _
      unfold while_
      dsimp only
      rw [hf]
      exact if_neg hd
    rw [rounds, hr]
    dsimp only
    rw [ih { s with said := s.said ++ [.regexp] } hi hf]
    simp [List.replicate_succ]

/-- without any input the value of an uninitialised variable decides -/
theorem C87_violated_no_input (c : Cfg) (fuel n : Nat) : rounds c fuel (n + 1) (start []) = .undefined := rfl

/-! ## Witnesses -/
namespace Demo
open Verif.RegExp.Demo

/-- ASCII -/
def cfg : Cfg := ⟨cx, ascii, id⟩

/-- what was said in `n` rounds, and what is left of the input -/
def seen : Next → Option (List Say × Str)
  | .again s => some (s.said, s.input)
  | _ => none

def session (n : Nat) (input : String) : Option (List Say × Str) := seen (rounds cfg 400 n (start (str input)))

/-- `/ab+/` -/
def t1 : Test := ⟨str "/ab+/", str "abc", [], .cat (.chr (.plain 97)) (.post (.chr (.plain 98)) (.many1 false)), []⟩

theorem t1_ok : t1.Ok cfg := by
  refine ⟨?_, ?_, by decide, by decide, by decide, ?_, by decide, by decide, by decide, fun h => absurd h (by decide)⟩
  · exact ⟨by decide, by decide, by decide⟩
  · exact ⟨by decide, by decide, by decide⟩
  · simp [t1, Re.Ok, Ctx.withFlags, cfg, cx, ascii, Re.isAlt, Ch.Ok, special, Re.unit, Re.blank, Op.Ok, lzOk, Re.text, Op.text, BAD, Ch.val]

/-- so the theorem speaks of sessions with it -/
example : ∀ t ∈ [Entry.test t1, .wrong (str "/(/"), .test t1], t.Ok cfg := by
  have h : Entry.Ok cfg (.wrong (str "/(/")) := ⟨⟨by decide, by decide, by decide⟩, .brackets, by rfl⟩
  intro t ht
  simp only [List.mem_cons, List.not_mem_nil, or_false] at ht
  rcases ht with e | e | e <;> rw [e]
  · exact t1_ok
  · exact h
  · exact t1_ok

/-- two tests; the first line of the second is no expression -/
example : session 3 "/ab+/\nabc\n/(/\n/b/\nab\n" =
    some ([.regexp, .exprn, .verdict true [(0, 2)], .regexp, .regexp, .exprn, .verdict false [(0, 2)]], []) := by decide +kernel

/-- C87 is violated: an empty text is tested as a line end. `/^$/` matches the empty text; the tool says "error". -/
theorem C87_violated_empty_text : session 1 "/^$/\n\n" = some ([.regexp, .exprn, .verdict false [(-1, -1)]], []) ∧
    m 1 "/^$/" "" = some (.ret true, [(0, 0)]) := by decide +kernel

/-- C87 is violated: the groups printed after "error" may be those of an earlier test (here: "(0,1), (0,1)" for `/b/` on "a") -/
theorem C87_violated_old_groups : session 2 "/(a)/\na\n/b/\na\n" =
    some ([.regexp, .exprn, .verdict true [(0, 1), (0, 1)], .regexp, .exprn, .verdict false [(0, 1), (0, 1)]], []) := by decide +kernel

end Demo

/-- C87 is violated: of a line of more than 253 bytes the rest is taken for the next line -/
theorem C87_violated_long_line (b r : Str) (h : ∀ c ∈ b, c ≠ 10) (hl : 254 ≤ b.length) :
    fgets (b ++ 10 :: r) = some (b.take 254, b.drop 254 ++ 10 :: r) := by
  have key : ∀ (n : Nat) (b : Str), (∀ c ∈ b, c ≠ 10) → n ≤ b.length → readLine n (b ++ 10 :: r) = (b.take n, b.drop n ++ 10 :: r) := by
    intro n
    induction n with
    | zero => intro b _ _; simp [readLine]
    | succ n ih =>
      intro b hb hn
      cases b with
      | nil => simp at hn
      | cons d b =>
        rw [List.cons_append, readLine, if_neg (hb d (by simp)), ih b (fun k hk => hb k (List.mem_cons_of_mem _ hk)) (by simpa using hn)]
        rfl
  cases b with
  | nil => simp at hl
  | cons d b => rw [← key 254 (d :: b) h hl]; rfl

example : ∃ b : Str, (∀ c ∈ b, c ≠ 10) ∧ 254 ≤ b.length := ⟨List.replicate 300 97, fun c hc => by rw [List.eq_of_mem_replicate hc]; decide, by rw [List.length_replicate]; decide⟩

end Verif.Tool.Tester
