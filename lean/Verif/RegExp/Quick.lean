import Verif.RegExp.History

/-!
# The precomputed first test (C31)

`parse` without moving first asks `quickCheck`, and returns false when it fails. `parseAll` is the same call without that test.
-/
namespace Verif.RegExp

/-- `parse` without the test of 1428-1430 -/
def parseAll (chars : Chars) (x : Expr) (fuel : Nat) (o : Obj) (a : Args) (mtch : Matches) : Option Out :=
  if x.ok = false then some ⟨.ret false, mtch, o⟩
  else tries (envOf chars x a) x.root fuel o.moves (if a.moves.getD o.moves then (a.eol - a.pos).toNat else 0) a.pos
    ⟨o.vars, clearMatches x mtch, o.startChange, o.endChange⟩

/-- what the case functions must satisfy on the characters `S`: characters with the same upper case have the same lower case; words (of one
length) are compared character by character, in the way single characters are. No assumption is made for other characters. -/
structure CaseOn (chars : Chars) (S : Nat → Prop) : Prop where
  upper : ∀ a b, S a → S b → chars.upper a = chars.upper b → chars.lower a = chars.lower b
  nil : chars.caseEq [] [] = true
  cons : ∀ a b s t, s.length = t.length → (∀ c ∈ a :: s, S c) → (∀ c ∈ b :: t, S c) → (chars.caseEq (a :: s) (b :: t) = true ↔
    (chars.lower a = chars.lower b ∨ chars.upper a = chars.upper b) ∧ chars.caseEq s t = true)

theorem CaseOn.mono {chars : Chars} {S S' : Nat → Prop} (h : CaseOn chars S) (hs : ∀ c, S' c → S c) : CaseOn chars S' :=
  ⟨fun a b ha hb => h.upper a b (hs a ha) (hs b hb), h.nil, fun a b s t hl h1 h2 =>
    h.cons a b s t hl (fun c hc => hs c (h1 c hc)) (fun c hc => hs c (h2 c hc))⟩

mutual
/-- the characters an expression names outside classes -/
def letters : List Node → List Nat
  | [] => []
  | n :: r => lettersN n ++ letters r
def lettersN : Node → List Nat
  | .symb c => [c]
  | .word w => w
  | .brackets _ b => letters b
  | .named _ b => letters b
  | .ahead b => letters b
  | .nahead b => letters b
  | .behind _ b => letters b
  | .nbehind _ b => letters b
  | .or b => letters b
  | .rangeN _ b => letters b
  | .rangeNM _ _ b => letters b
  | .ngRangeN _ b => letters b
  | .ngRangeNM _ _ b => letters b
  | .empty | .msym _ | .enum _ | .nenum _ | .bkTrace _ | .bkTraceN _ | .bkTraceName _ | .bkTraceNName _ | .bkBrack _ | .bkBrackName _ => []
end

/-- the case functions are as above on the characters of the text and on those of a list, if case is ignored -/
def CaseFor (env : Env) (L : List Nat) : Prop := env.flags.ignoreCase = true → CaseOn env.chars (fun c => c ∈ env.text ∨ c ∈ L)

theorem CaseFor.mono {env : Env} {L L' : List Nat} (h : CaseFor env L) (hs : ∀ c ∈ L', c ∈ L) : CaseFor env L' :=
  fun hi => (h hi).mono fun c hc => hc.imp_right (hs c)

theorem CaseFor.head {env : Env} {n : Node} {r : List Node} (h : CaseFor env (letters (n :: r))) : CaseFor env (lettersN n) :=
  h.mono fun c hc => by rw [letters]; exact List.mem_append_left _ hc

theorem CaseFor.tail {env : Env} {n : Node} {r : List Node} (h : CaseFor env (letters (n :: r))) : CaseFor env (letters r) :=
  h.mono fun c hc => by rw [letters]; exact List.mem_append_right _ hc

theorem rd_mem {t : Text} {q : Int} {d : Nat} (h : rd t q = some d) : d ∈ t := by
  unfold rd at h
  split at h
  · exact List.mem_of_getElem? h
  · cases h

theorem run_more {env : Env} (fuel k : Nat) : ∀ {st : State} {r : End × Mem}, run env fuel st = some r → run env (fuel + k) st = some r := by
  induction fuel with
  | zero => intro st r h; simp [run] at h
  | succ fuel ih =>
    intro st r h
    rw [Nat.succ_add, run]
    rw [run] at h
    cases hs : step env st with
    | inr a => rw [hs] at h; exact h
    | inl a => rw [hs] at h; exact ih h

/-- a run that fails, from a chain on, with nothing on the stack -/
def Fails (env : Env) (pos : List (List Node)) (q : Int) (k : Nat) : Prop :=
  ∀ m, ∃ m', run env k ⟨⟨pos, true, q⟩, none, m, []⟩ = some (.ret false, m')

theorem fails_tested {env : Env} {n : Node} {ns : List Node} {up : List (List Node)} {q : Int}
    (h : ∀ m, (execNode env n ns up true q m).1 = .fail) : Fails env ((n :: ns) :: up) q 1 := by
  intro m
  rw [run, step_eq]
  have : (after ⟨(n :: ns) :: up, true, q⟩ [] (execNode env n ns up true q m)) = .inr (.ret false, (execNode env n ns up true q m).2) := by
    rw [after, h m]; rfl
  exact ⟨_, by rw [show (exec env ⟨(n :: ns) :: up, true, q⟩ m) = execNode env n ns up true q m from rfl]; rw [this]⟩

mutual
/-- the number of rounds after which the first test has failed -/
def depth : List Node → Nat
  | [] => 1
  | n :: _ => depthN n
def depthN : Node → Nat
  | .brackets _ b => depth b + 1
  | _ => 1
end

theorem quick_char {env : Env} {c : Nat} {q : Int} (h : quickCheck env (.char c) q = some false) :
    env.stop ≤ q ∨ ∃ d, rd env.text q = some d ∧ (if env.flags.ignoreCase then env.chars.lower d ≠ env.chars.lower c else d ≠ c) := by
  simp only [quickCheck] at h
  split at h
  · left; assumption
  · right
    cases hd : rd env.text q with
    | none => rw [hd] at h; cases h
    | some d =>
      rw [hd] at h
      refine ⟨d, rfl, ?_⟩
      simp only [Option.map_some, Option.some.injEq] at h
      cases hi : env.flags.ignoreCase <;> simp [hi] at h ⊢ <;> exact h

theorem rd_drop {t : Text} {q : Int} {d : Nat} (h : rd t q = some d) : t.drop q.toNat = d :: t.drop (q.toNat + 1) := by
  unfold rd at h
  split at h
  · obtain ⟨h1, h2⟩ := List.getElem?_eq_some_iff.mp h
    rw [List.drop_eq_getElem_cons h1, h2]
  · cases h

mutual
theorem first_fails {env : Env} {q : Int} (hml : env.flags.multiLine = false)
    (h0 : 0 ≤ q) (hs : env.stop ≤ env.text.length) : ∀ (l : List Node) (up : List (List Node)), CaseFor env (letters l) → quickCheck env (firstOf l) q = some false → Fails env (l :: up) q (depth l)
  | [], up, _, h => by simp [firstOf, quickCheck] at h
  | n :: ns, up, hic, h => by
    rw [firstOf] at h
    rw [depth]
    exact first_failsN hml h0 hs n ns up hic.head h
theorem first_failsN {env : Env} {q : Int} (hml : env.flags.multiLine = false)
    (h0 : 0 ≤ q) (hs : env.stop ≤ env.text.length) : ∀ (n : Node) (ns : List Node) (up : List (List Node)), CaseFor env (lettersN n) → quickCheck env (firstOfNode n) q = some false →
    Fails env ((n :: ns) :: up) q (depthN n)
  | .brackets i b, ns, up, hic, h => by
    rw [firstOfNode] at h
    rw [depthN]
    have := first_fails hml h0 hs b ((.brackets i b :: ns) :: up) (by rw [lettersN] at hic; exact hic) h
    intro m
    rw [run]
    exact this _
  | .msym k, ns, up, _, h => by
    by_cases hk : k = .sol
    · subst hk
      simp only [firstOfNode, quickCheck, Option.some.injEq, decide_eq_false_iff_not] at h
      refine fails_tested fun m => ?_
      simp [execNode, checkMeta, hml, hold, h, tested]
    · cases k <;> simp_all [firstOfNode, quickCheck]
  | .symb c, ns, up, hic, h => by
    rw [firstOfNode] at h
    split at h
    · simp [quickCheck] at h
    · refine fails_tested fun m => ?_
      show tested ns up (eat env q (symEq env c)) = .fail
      rcases quick_char h with h1 | ⟨d, h1, h2⟩
      · simp [eat, h1, tested]
      · unfold eat
        split
        · rfl
        · rw [h1]
          dsimp only
          have : symEq env c d = false := by
            unfold symEq
            cases hi : env.flags.ignoreCase with
            | false => simp [hi] at h2 ⊢; exact h2
            | true =>
              simp [hi] at h2 ⊢
              exact ⟨h2, fun hu => h2 ((hic hi).upper _ _ (Or.inl (rd_mem h1)) (Or.inr (by simp [lettersN])) hu)⟩
          simp [this, tested]
  | .word (c :: w), ns, up, hic, h => by
    rw [firstOfNode] at h
    split at h
    · simp [quickCheck] at h
    · refine fails_tested fun m => ?_
      show tested ns up (checkWord env (c :: w) q) = .fail
      have : checkWord env (c :: w) q = .no := by
        unfold checkWord
        rcases quick_char h with h1 | ⟨d, h1, h2⟩
        · rw [if_pos (by simp only [List.length_cons]; omega)]
        · split
          · rfl
          · rename_i hlen
            cases hi : env.flags.ignoreCase with
            | true =>
              simp only [hi, if_true] at h2 ⊢
              have hd := rd_drop h1
              have e : (env.text.drop q.toNat).take (c :: w).length = d :: (env.text.drop (q.toNat + 1)).take w.length := by
                rw [hd]; rfl
              by_cases hr : 0 ≤ q ∧ q + (c :: w).length ≤ env.text.length
              · rw [if_pos hr, e]
                rw [if_neg]
                intro hce
                have hm : ∀ z ∈ (env.text.drop q.toNat).take (c :: w).length, z ∈ env.text := fun z hz => List.mem_of_mem_drop (List.mem_of_mem_take hz)
                rw [e] at hm
                have hL : ∀ z ∈ c :: w, z ∈ env.text ∨ z ∈ lettersN (.word (c :: w)) := fun z hz => Or.inr (by rw [lettersN]; exact hz)
                have hlen2 : ((env.text.drop (q.toNat + 1)).take w.length).length = w.length := by
                  simp only [List.length_take, List.length_drop]; simp only [List.length_cons] at hr; omega
                have hcc := ((hic hi).cons d c _ w hlen2 (fun z hz => Or.inl (hm z hz)) hL).1 hce
                exact hcc.1.elim h2 fun hu => h2 ((hic hi).upper _ _ (Or.inl (rd_mem h1)) (hL c List.mem_cons_self) hu)
              · exfalso
                omega
            | false =>
              simp only [hi] at h2 ⊢
              simp only [List.length_cons, cmpLoop, Bool.false_and]
              rw [h1]
              simp [rd]
              intro h
              exact absurd h (by simpa using h2)
      rw [this]; rfl
  | .word [], ns, up, _, h => by simp [firstOfNode, quickCheck] at h
  | .empty, _, _, _, h => by simp [firstOfNode, quickCheck] at h
  | .enum _, _, _, _, h => by simp [firstOfNode, quickCheck] at h
  | .nenum _, _, _, _, h => by simp [firstOfNode, quickCheck] at h
  | .named _ _, _, _, _, h => by simp [firstOfNode, quickCheck] at h
  | .bkTrace _, _, _, _, h => by simp [firstOfNode, quickCheck] at h
  | .bkTraceN _, _, _, _, h => by simp [firstOfNode, quickCheck] at h
  | .bkTraceName _, _, _, _, h => by simp [firstOfNode, quickCheck] at h
  | .bkTraceNName _, _, _, _, h => by simp [firstOfNode, quickCheck] at h
  | .bkBrack _, _, _, _, h => by simp [firstOfNode, quickCheck] at h
  | .bkBrackName _, _, _, _, h => by simp [firstOfNode, quickCheck] at h
  | .ahead _, _, _, _, h => by simp [firstOfNode, quickCheck] at h
  | .nahead _, _, _, _, h => by simp [firstOfNode, quickCheck] at h
  | .behind _ _, _, _, _, h => by simp [firstOfNode, quickCheck] at h
  | .nbehind _ _, _, _, _, h => by simp [firstOfNode, quickCheck] at h
  | .or _, _, _, _, h => by simp [firstOfNode, quickCheck] at h
  | .rangeN _ _, _, _, _, h => by simp [firstOfNode, quickCheck] at h
  | .rangeNM _ _ _, _, _, _, h => by simp [firstOfNode, quickCheck] at h
  | .ngRangeN _ _, _, _, _, h => by simp [firstOfNode, quickCheck] at h
  | .ngRangeNM _ _ _, _, _, _, h => by simp [firstOfNode, quickCheck] at h
end

/-- C31: with `^` and `$` for the whole text only, and case functions as in `CaseOn` on the characters of the text and of the expression if
case is ignored, the call that asks the first test
returns what the call without it returns (given rounds enough for the first node), and leaves the same groups after success. -/
theorem C31_the_first_test_is_invisible_partial (chars : Chars) (x : Expr) (a : Args) (hml : x.flags.multiLine = false)
    (hic : x.flags.ignoreCase = true → CaseOn chars (fun c => c ∈ a.text ∨ c ∈ letters x.body)) (h0 : 0 ≤ a.pos) (h1 : a.pos ≤ a.text.length) (h2 : a.eol ≤ a.text.length) :
    ∃ k, ∀ (fuel : Nat) (o : Obj) (mtch : Matches), k ≤ fuel →
      (parse chars x fuel o a mtch).map Out.res = (parseAll chars x fuel o a mtch).map Out.res ∧
      (∀ out, parse chars x fuel o a mtch = some out → out.res = .ret true → parseAll chars x fuel o a mtch = some out) := by
  refine ⟨depth x.body + 1, fun fuel o mtch hf => ?_⟩
  unfold parse parseAll
  dsimp only
  split
  · exact ⟨rfl, fun _ h _ => h⟩
  · cases hmv : a.moves.getD o.moves with
    | true => exact ⟨rfl, fun _ h _ => h⟩
    | false =>
      simp only [Bool.false_eq_true, if_false]
      cases hq : quickCheck (envOf chars x a) (firstOf x.body) a.pos with
      | none =>
        exfalso
        revert hq
        cases firstOf x.body with
        | none => simp [quickCheck]
        | msym m => cases m <;> simp [quickCheck]
        | char c =>
          simp only [quickCheck]
          split
          · simp
          · rename_i hlt
            have hlt : ¬ a.eol ≤ a.pos := hlt
            obtain ⟨d, hd⟩ := rd_some (t := (envOf chars x a).text) h0 (show a.pos < a.text.length by omega)
            rw [hd]; simp
      | some b =>
        cases b with
        | true => exact ⟨rfl, fun _ h _ => h⟩
        | false =>
          dsimp only
          obtain ⟨m', hm⟩ := first_fails (env := envOf chars x a) hml h0 h2 x.body x.root hic hq
            ((⟨o.vars, clearMatches x mtch, o.startChange, o.endChange⟩ : Mem).set (addr x.root)
              { o.vars (addr x.root) with start := a.pos })
          have hr : run (envOf chars x a) fuel ⟨⟨x.root, true, a.pos⟩, none, ⟨o.vars, clearMatches x mtch, o.startChange, o.endChange⟩, []⟩ =
              some (.ret false, m') := by
            obtain ⟨k, rfl⟩ : ∃ k, fuel = depth x.body + 1 + k := ⟨fuel - (depth x.body + 1), by omega⟩
            refine run_more _ k ?_
            rw [run]
            exact hm
          rw [tries.eq_def]
          dsimp only
          rw [hr]
          exact ⟨rfl, fun out h ht => by cases h; cases ht⟩

namespace Demo

theorem ascii_upper (a b : Nat) (h : upp a = upp b) : low a = low b := by
  revert h
  unfold low upp isLow isUp
  simp only [decide_eq_true_eq]
  repeat' split
  all_goals omega

theorem ascii_caseOn (S : Nat → Prop) : CaseOn ascii S := by
  refine ⟨fun a b _ _ h => ascii_upper a b h, by decide, fun a b s t _ _ _ => ?_⟩
  have h2 := ascii_upper
  show decide ((a :: s).map low = (b :: t).map low) = true ↔ (low a = low b ∨ upp a = upp b) ∧ decide (s.map low = t.map low) = true
  simp only [List.map_cons, List.cons.injEq, decide_eq_true_eq]
  grind

def reI (n : Nat) (body : List Node) : Expr := ⟨body, n, 0, ⟨true, false, false⟩, true⟩
def reM (n : Nat) (body : List Node) : Expr := ⟨body, n, 0, ⟨false, false, true⟩, true⟩

/-- the first test rejects `/(aB)c/i` at 0 of "xabc" and lets it try at 1 -/
example : quickCheck (envOf ascii (reI 2 [.brackets (some 1) [.word (str "aB")], c 'c']) (at_ "xabc" 0))
      (firstOf (reI 2 [.brackets (some 1) [.word (str "aB")], c 'c']).body) 0 = some false ∧
    shown 1 (call (reI 2 [.brackets (some 1) [.word (str "aB")], c 'c']) (at_ "xabc" 1)) = some (.ret true, [(1, 4)]) := by decide +kernel

/-- C31 fails with `multiLine`: `/^b/m` matches "a\nb" at 2 without the test, not with it -/
theorem C31_start_of_a_later_line_is_missed :
    shown 1 (parse ascii (reM 1 [.msym .sol, c 'b']) 400 Obj.new (at_ "a\nb" 2) noMatches) = some (.ret false, [(-1, -1)]) ∧
    shown 1 (parseAll ascii (reM 1 [.msym .sol, c 'b']) 400 Obj.new (at_ "a\nb" 2) noMatches) = some (.ret true, [(2, 3)]) := by
  decide +kernel

/-- two characters of Unicode with the same upper case: 's' and U+017F (long s, its own lower case) -/
def withLongS : Chars := { ascii with upper := fun c => if c = 0x17F then 83 else upp c }

/-- on the other characters its case functions are as the theorem asks -/
example : CaseOn withLongS (fun c => c ≠ 0x17F) := by
  have e : ∀ c, c ≠ 0x17F → withLongS.upper c = upp c := fun c h => by simp [withLongS, h]
  have k := ascii_caseOn (fun c => c ≠ 0x17F)
  refine ⟨fun a b ha hb h => ?_, k.nil, fun a b s t hl h1 h2 => ?_⟩
  · rw [e a ha, e b hb] at h; exact k.upper a b ha hb h
  · rw [e a (h1 a List.mem_cons_self), e b (h2 b List.mem_cons_self)]; exact k.cons a b s t hl h1 h2

/-- C31 fails for such a character: `/s/i` matches the long s without the test, not with it -/
theorem C31_upper_case_match_is_missed :
    shown 1 (parse withLongS (reI 1 [c 's']) 400 Obj.new ⟨[0x17F], 0, 1, 0, none, none⟩ noMatches) = some (.ret false, [(-1, -1)]) ∧
    shown 1 (parseAll withLongS (reI 1 [c 's']) 400 Obj.new ⟨[0x17F], 0, 1, 0, none, none⟩ noMatches) = some (.ret true, [(0, 1)]) := by
  decide +kernel

end Demo
end Verif.RegExp
