import Verif.RegExp.Marks

/-!
# What a call reads from outside

The result depends on the back trace only through the groups the expression refers to (`tracesIn`), and on the scheme start only if the
expression has a `~` (`noTilde`).
-/
namespace Verif.RegExp

mutual
/-- references to groups of the start expression are below `m`, to names below `n`. `\Y{name}` reads the numbered group of that number
(cregexp.cpp:1050), so it counts among the numbers. -/
def tracesIn (m n : Nat) : List Node → Bool
  | [] => true
  | a :: r => tracesInN m n a && tracesIn m n r
def tracesInN (m n : Nat) : Node → Bool
  | .bkTrace k | .bkTraceN k | .bkTraceNName k => decide (k < m)
  | .bkTraceName k => decide (k < n)
  | .brackets _ b | .named _ b | .ahead b | .nahead b | .behind _ b | .nbehind _ b | .or b | .rangeN _ b | .rangeNM _ _ b | .ngRangeN _ b
  | .ngRangeNM _ _ b => tracesIn m n b
  | .empty | .msym _ | .symb _ | .word _ | .enum _ | .nenum _ | .bkBrack _ | .bkBrackName _ => true
end

mutual
/-- no `~` -/
def noTilde : List Node → Bool
  | [] => true
  | a :: r => noTildeN a && noTilde r
def noTildeN : Node → Bool
  | .msym k => k != .soScheme
  | .brackets _ b | .named _ b | .ahead b | .nahead b | .behind _ b | .nbehind _ b | .or b | .rangeN _ b | .rangeNM _ _ b | .ngRangeN _ b
  | .ngRangeNM _ _ b => noTilde b
  | .empty | .symb _ | .word _ | .enum _ | .nenum _ | .bkTrace _ | .bkTraceN _ | .bkTraceName _ | .bkTraceNName _ | .bkBrack _
  | .bkBrackName _ => true
end

/-- the same text and the same bounds of the first `m` groups and the first `n` named ones -/
def SameBack (m n : Nat) : Option (Text × Matches) → Option (Text × Matches) → Prop
  | none, none => True
  | some (t, a), some (t', b) => t' = t ∧ (∀ i, i < m → b.s i = a.s i ∧ b.e i = a.e i) ∧ ∀ i, i < n → b.ns i = a.ns i ∧ b.ne i = a.ne i
  | _, _ => False

/-- environments that differ in the scheme start and in the groups of the back trace that are not read -/
structure SameEnv (m n : Nat) (tilde : Bool) (env env' : Env) : Prop where
  text : env'.text = env.text
  stop : env'.stop = env.stop
  flags : env'.flags = env.flags
  chars : env'.chars = env.chars
  cMatch : env'.cMatch = env.cMatch
  cnMatch : env'.cnMatch = env.cnMatch
  ss : tilde = true → env'.schemeStart = env.schemeStart
  back : SameBack m n env.back env'.back

/-- what is required of a chain -/
def ReadsOnly (m n : Nat) (tilde : Bool) (l : List Node) : Prop := tracesIn m n l = true ∧ (tilde = true ∨ noTilde l = true)

theorem reads_inherited (m n : Nat) (tilde : Bool) : Inherited (ReadsOnly m n tilde) := by
  refine ⟨fun a r h => ?_, fun a r h => ?_⟩
  · obtain ⟨h1, h2⟩ := h
    rw [tracesIn, Bool.and_eq_true] at h1
    refine ⟨h1.2, h2.imp id fun h => ?_⟩
    rw [noTilde, Bool.and_eq_true] at h; exact h.2
  · obtain ⟨h1, h2⟩ := h
    rw [tracesIn, Bool.and_eq_true] at h1
    refine ⟨?_, h2.imp id fun h => ?_⟩
    · have h := h1.1
      cases a <;> simp only [tracesInN] at h <;> first | exact h | rfl
    · rw [noTilde, Bool.and_eq_true] at h
      have h := h.1
      cases a <;> simp only [noTildeN] at h <;> first | exact h | rfl

theorem eat_same {m n : Nat} {tilde : Bool} {env env' : Env} (h : SameEnv m n tilde env env') (q : Int) (f : Nat → Bool) : eat env' q f = eat env q f := by
  unfold eat; rw [h.stop, h.text]

theorem andAt_same {m n : Nat} {tilde : Bool} {env env' : Env} (h : SameEnv m n tilde env env') (g : Bool) (i : Int) (f : Nat → Bool) :
    andAt env' g i f = andAt env g i f := by unfold andAt; rw [h.text]

theorem isWordChar_same {m n : Nat} {tilde : Bool} {env env' : Env} (h : SameEnv m n tilde env env') : isWordChar env' = isWordChar env := by
  funext c; unfold isWordChar; rw [h.chars]

theorem cmpLoop_same {m n : Nat} {tilde : Bool} {env env' : Env} (h : SameEnv m n tilde env env') (guard : Bool) (src : Int → Option Nat) (eq : Nat → Nat → Bool)
    (k : Nat) : ∀ i q, cmpLoop env' guard src eq k i q = cmpLoop env guard src eq k i q := by
  induction k with
  | zero => intro i q; rfl
  | succ k ih =>
    intro i q
    rw [cmpLoop, cmpLoop, h.stop, h.text]
    split
    · rfl
    · split
      · rw [ih]
      · rfl

theorem refLoop_same {m n : Nat} {tilde : Bool} {env env' : Env} (h : SameEnv m n tilde env env') (t : Text) (eq : Nat → Nat → Bool) (a b q : Int) :
    refLoop env' t eq a b q = refLoop env t eq a b q := cmpLoop_same h ..

theorem checkWord_same {m n : Nat} {tilde : Bool} {env env' : Env} (h : SameEnv m n tilde env env') (w : Text) (q : Int) : checkWord env' w q = checkWord env w q := by
  unfold checkWord
  rw [h.stop, h.flags, h.text, h.chars, cmpLoop_same h]

theorem checkRef_same {m n : Nat} {tilde : Bool} {env env' : Env} (h : SameEnv m n tilde env env') (c : Nat) (s e : Nat → Int) (k : Nat) (q : Int) :
    checkRef env' c s e k q = checkRef env c s e k q := by
  unfold checkRef
  rw [h.text, refLoop_same h]

theorem checkTrace_same {m n : Nat} {tilde : Bool} {env env' : Env} (h : SameEnv m n tilde env env') (named nocase : Bool) (k : Nat) (q : Int)
    (hk : if named && !nocase then k < n else k < m) : checkTrace env' named nocase k q = checkTrace env named nocase k q := by
  have hb := h.back
  have he : eqLower env' = eqLower env := by funext a b; unfold eqLower; rw [h.chars]
  unfold checkTrace
  cases h1 : env.back with
  | none =>
    rw [h1] at hb
    cases h2 : env'.back with
    | none => rfl
    | some _ => rw [h2] at hb; exact absurd hb id
  | some p =>
    rw [h1] at hb
    obtain ⟨t, a⟩ := p
    cases h2 : env'.back with
    | none => rw [h2] at hb; exact absurd hb id
    | some p' =>
      rw [h2] at hb
      obtain ⟨t', b⟩ := p'
      obtain ⟨rfl, h3, h4⟩ := hb
      dsimp only
      rw [he, refLoop_same h]
      by_cases hc : (named && !nocase) = true
      · rw [if_pos hc] at hk
        simp only [hc, if_true]
        rw [(h4 k hk).1, (h4 k hk).2]
      · rw [if_neg hc] at hk
        have hc : (named && !nocase) = false := by simpa using hc
        simp only [hc, Bool.false_eq_true, if_false]
        rw [(h3 k hk).1, (h3 k hk).2]

theorem checkMeta_same {m n : Nat} {tilde : Bool} {env env' : Env} (h : SameEnv m n tilde env env') (k : Meta) (q : Int) (hk : tilde = true ∨ k ≠ .soScheme) :
    checkMeta env' k q = checkMeta env k q := by
  have hw : wordBoundary env' q = wordBoundary env q := by
    unfold wordBoundary
    rw [h.stop, isWordChar_same h, andAt_same h, andAt_same h]
  cases k <;> simp only [checkMeta, h.flags, h.stop, h.chars, eat_same h, andAt_same h, isWordChar_same h, hw]
  rcases hk with hk | hk
  · rw [h.ss hk]
  · exact absurd rfl hk

theorem execNode_same {m n : Nat} {tilde : Bool} {env env' : Env} (h : SameEnv m n tilde env env') (a : Node) (ns : List Node) (up : List (List Node)) (left : Bool)
    (q : Int) (mem : Mem) (ha : ReadsOnly m n tilde (a :: ns)) : execNode env' a ns up left q mem = execNode env a ns up left q mem := by
  obtain ⟨h1, h2⟩ := ha
  rw [tracesIn, Bool.and_eq_true] at h1
  have h1 := h1.1
  have hsym : symEq env' = symEq env := by funext a b; unfold symEq; rw [h.flags, h.chars]
  cases a with
  | msym k =>
    simp only [execNode]
    rw [checkMeta_same h k q (h2.imp id fun h => by
      rw [noTilde, Bool.and_eq_true] at h
      have h := h.1
      simp only [noTildeN, bne_iff_ne, ne_eq] at h
      exact h)]
  | symb c => simp only [execNode, eat_same h, hsym]
  | word w => simp only [execNode, checkWord_same h]
  | enum c => simp only [execNode, eat_same h]
  | nenum c => simp only [execNode, eat_same h]
  | bkTrace k =>
    simp only [tracesInN, decide_eq_true_eq] at h1
    simp only [execNode]
    rw [checkTrace_same h _ _ _ _ (by simpa using h1)]
  | bkTraceN k =>
    simp only [tracesInN, decide_eq_true_eq] at h1
    simp only [execNode]
    rw [checkTrace_same h _ _ _ _ (by simpa using h1)]
  | bkTraceName k =>
    simp only [tracesInN, decide_eq_true_eq] at h1
    simp only [execNode]
    rw [checkTrace_same h _ _ _ _ (by simpa using h1)]
  | bkTraceNName k =>
    simp only [tracesInN, decide_eq_true_eq] at h1
    simp only [execNode]
    rw [checkTrace_same h _ _ _ _ (by simpa using h1)]
  | bkBrack k => simp only [execNode, checkRef_same h, h.cMatch]
  | bkBrackName k => simp only [execNode, checkRef_same h, h.cnMatch]
  | empty | brackets _ _ | named _ _ | ahead _ | nahead _ | behind _ _ | nbehind _ _ | or _ | rangeN _ _ | rangeNM _ _ _ | ngRangeN _ _ | ngRangeNM _ _ _ => rfl

theorem exec_same {m n : Nat} {tilde : Bool} {env env' : Env} (h : SameEnv m n tilde env env') {c : Cfg} {mem : Mem} (hc : AllIn (ReadsOnly m n tilde) c.pos) :
    exec env' c mem = exec env c mem := by
  obtain ⟨pos, left, q⟩ := c
  match pos with
  | [] => rfl
  | [] :: up => rfl
  | (a :: ns) :: up => exact execNode_same h a ns up left q mem (hc _ (by simp))

theorem run_same {m n : Nat} {tilde : Bool} {env env' : Env} (h : SameEnv m n tilde env env') (fuel : Nat) : ∀ {st : State}, StIn (ReadsOnly m n tilde) st →
    run env' fuel st = run env fuel st := by
  induction fuel with
  | zero => intro st _; rfl
  | succ f ih =>
    intro st hs
    have e : step env' st = step env st := by
      unfold step
      dsimp only
      cases st.act with
      | none => dsimp only; rw [exec_same h hs.cur]
      | some a => rfl
    rw [run, run, e]
    have hin := step_in (reads_inherited m n tilde) (env := env) hs
    cases hst : step env st with
    | inr r => rfl
    | inl st1 => rw [hst] at hin; exact ih hin

theorem tries_same {m n : Nat} {tilde : Bool} {env env' : Env} (h : SameEnv m n tilde env env') {root : List (List Node)} (hr : AllIn (ReadsOnly m n tilde) root) (fuel : Nat)
    (keep : Bool) (k : Nat) : ∀ (pos : Int) (mem : Mem), tries env' root fuel keep k pos mem = tries env root fuel keep k pos mem := by
  have e : ∀ (pos : Int) (mem : Mem), run env' fuel ⟨⟨root, true, pos⟩, none, mem, []⟩ = run env fuel ⟨⟨root, true, pos⟩, none, mem, []⟩ :=
    fun pos mem => run_same h fuel ⟨hr, by simp⟩
  induction k with
  | zero =>
    intro pos mem
    rw [tries.eq_def, tries.eq_def]; dsimp only
    rw [e]
  | succ k ih =>
    intro pos mem
    rw [tries.eq_def, tries.eq_def]; dsimp only
    rw [e]
    split <;> first | rfl | exact ih _ _

mutual
theorem firstOf_ne : ∀ l : List Node, firstOf l ≠ .msym .soScheme
  | [] => by simp [firstOf]
  | a :: _ => by rw [firstOf]; exact firstOfNode_ne a
theorem firstOfNode_ne : ∀ a : Node, firstOfNode a ≠ .msym .soScheme
  | .brackets _ b => by rw [firstOfNode]; exact firstOf_ne b
  | .msym k => by cases k <;> simp [firstOfNode]
  | .symb c => by simp only [firstOfNode]; split <;> simp
  | .word [] => by simp [firstOfNode]
  | .word (c :: w) => by simp only [firstOfNode]; split <;> simp
  | .empty | .enum _ | .nenum _ | .named _ _ | .bkTrace _ | .bkTraceN _ | .bkTraceName _ | .bkTraceNName _ | .bkBrack _ | .bkBrackName _ | .ahead _ | .nahead _
  | .behind _ _ | .nbehind _ _ | .or _ | .rangeN _ _ | .rangeNM _ _ _ | .ngRangeN _ _ | .ngRangeNM _ _ _ => by simp [firstOfNode]
end

/-- Two calls with the same text, positions and object give the same result if the back traces agree in the groups the expression refers
to, and the scheme start is the same or the expression has no `~`. -/
theorem parse_same (chars : Chars) (x : Expr) (fuel : Nat) (o : Obj) (a a' : Args) (mt : Matches) {m n : Nat} (ht : tracesIn m n x.body = true)
    (h1 : a'.text = a.text) (h2 : a'.pos = a.pos) (h3 : a'.eol = a.eol) (h4 : a'.moves = a.moves)
    (h5 : a'.schemeStart = a.schemeStart ∨ noTilde x.body = true) (h6 : SameBack m n a.back a'.back) :
    parse chars x fuel o a' mt = parse chars x fuel o a mt := by
  obtain ⟨tilde, h5, h5'⟩ : ∃ tilde : Bool, (tilde = true → a'.schemeStart = a.schemeStart) ∧ (tilde = true ∨ noTilde x.body = true) := by
    rcases h5 with h | h
    · exact ⟨true, fun _ => h, .inl rfl⟩
    · exact ⟨false, (fun h => absurd h (by decide)), Or.inr h⟩
  have he : SameEnv m n tilde (envOf chars x a) (envOf chars x a') := ⟨h1, h3, rfl, rfl, rfl, rfl, h5, h6⟩
  have hroot : AllIn (ReadsOnly m n tilde) x.root := by
    intro l hl
    simp only [Expr.root, List.mem_singleton] at hl
    subst hl
    refine ⟨by simp [tracesIn, tracesInN, ht], h5'.imp id fun h => by simp [noTilde, noTildeN, h]⟩
  have hq : quickCheck (envOf chars x a') (firstOf x.body) a.pos = quickCheck (envOf chars x a) (firstOf x.body) a.pos := by
    have hne := firstOf_ne x.body
    cases hf : firstOf x.body with
    | none => rfl
    | char c =>
      unfold quickCheck
      dsimp only
      rw [he.stop, he.text]
      rfl
    | msym k =>
      rw [hf] at hne
      cases k <;> first | rfl | exact absurd rfl hne
  unfold parse
  dsimp only
  rw [h2, h3, h4, hq]
  simp only [tries_same he hroot]

end Verif.RegExp
