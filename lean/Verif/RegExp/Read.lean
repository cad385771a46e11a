import Verif.RegExp.ReadClass
import Verif.RegExp.Gen

/-!
# Expressions are read as they are written (C56)
-/
namespace Verif.RegExp

attribute [local irreducible] getHex

/-! ## The tree of an expression -/

def Op.node (b : List Node) : Op → Node
  | .many z => if z then .ngRangeN 0 b else .rangeN 0 b
  | .many1 z => if z then .ngRangeN 1 b else .rangeN 1 b
  | .maybe z => if z then .ngRangeNM 0 1 b else .rangeNM 0 1 b
  | .exactly n z => if z then .ngRangeNM (decNum n) (decNum n) b else .rangeNM (decNum n) (decNum n) b
  | .atLeast n z => if z then .ngRangeN (decNum n) b else .rangeN (decNum n) b
  | .between n m z => if z then .ngRangeNM (decNum n) (decNum m) b else .rangeNM (decNum n) (decNum m) b
  | .ahead => .ahead b
  | .nahead => .nahead b
  | .behind d => .behind d b
  | .nbehind d => .nbehind d b

/-- the set of a class -/
def clsOf (x : Ctx) (neg : Bool) (k : CR) : Cls := if neg then fun d => !(k.setB x fun _ => false) d else k.setB x fun _ => false

/-- an expression as a chain of nodes -/
def Re.tree (x : Ctx) : CState → Re → List Node
  | _, .eps | _, .space _ => []
  | _, .chr w => [.symb w.val]
  | _, .ctl c => [.symb c]
  | _, .sym m => [.msym m]
  | _, .cls neg k => [.enum (clsOf x neg k)]
  | st, .group a => [.brackets (some st.cMatch) (a.tree x { st with cMatch := st.cMatch + 1 })]
  | st, .bare a => [.named none (a.tree x st)]
  | st, .named n a => [.named (some st.names.length) (a.tree x { st with names := st.names ++ [n] })]
  | _, .trace c => [.bkTrace ((hexVal c).getD 0)]
  | _, .traceN c => [.bkTraceN ((hexVal c).getD 0)]
  | _, .traceName n => [.bkTraceName ((bracketNo x (x.back.getD []) n).getD 0)]
  | _, .ref d => [.bkBrack d]
  | st, .refName n => [.bkBrackName ((bracketNo x st.names n).getD 0)]
  | st, .cat a b => a.tree x st ++ b.tree x (a.after st)
  | st, .alt a b => .or (a.tree x st) :: b.tree x (a.after st)
  | st, .post a o => [o.node (a.tree x st)]

theorem op_isOp (o : Op) (b : List Node) : isOp (o.node b) = true ∧ isOr (o.node b) = false ∧ ∀ c, withBody (o.node b) c = o.node c := by
  cases o <;> simp only [Op.node] <;> (try split) <;> exact ⟨rfl, rfl, fun _ => rfl⟩

theorem op_plain (o : Op) {b c : List Node} (h : plain b = plain c) : plainN (o.node b) = plainN (o.node c) := by
  cases o <;> simp only [Op.node] <;> (try split) <;> simp only [plainN, h]

/-! ## Tokens -/

def pushAll : List Node → Scan → Scan
  | [], s => s
  | n :: l, s => (pushAll l s).push n

theorem pushAll_append (l k : List Node) (s : Scan) : pushAll (l ++ k) s = pushAll l (pushAll k s) := by
  induction l with
  | nil => rfl
  | cons a l ih => simp only [List.cons_append, pushAll, ih]

theorem pushAll_ok (l k : List Node) (st : CState) (r : Option Text) : pushAll l (.ok k st r) = .ok (l ++ k) st r := by
  induction l with
  | nil => rfl
  | cons a l ih => simp only [pushAll, ih, Scan.push, List.cons_append]

theorem noSpace {x : Ctx} (hx : CtxOk x) {c : Nat} (h : c ∈ [47, 92, 46, 94, 36, 126, 63, 42, 43, 124, 123, 125, 40, 41, 91, 93]) :
    (x.extend && x.isSpace c) = false := by
  cases hs : x.isSpace c with
  | false => simp
  | true => exact absurd h (hx.space c hs)

theorem S_leaf {x : Ctx} {st : CState} {c : Nat} {r rest : Text} {n : Node} (hs : (x.extend && x.isSpace c) = false) (hc : c ≠ 41)
    (h : token x st c r = .leaf n rest) : S x st (c :: r) = (S x st rest).push n := by
  rw [S_cons, hs, if_neg (by simp), if_neg hc, h]

theorem S_space {x : Ctx} {st : CState} {c : Nat} {r : Text} (hs : (x.extend && x.isSpace c) = true) : S x st (c :: r) = S x st r := by
  rw [S_cons, hs, if_pos rfl]

theorem S_close {x : Ctx} (hx : CtxOk x) {st : CState} {r : Text} : S x st (41 :: r) = .ok [] st (some r) := by
  rw [S_cons, noSpace hx (by decide), if_neg (by simp), if_pos rfl]

theorem tok_plain {x : Ctx} {st : CState} {c : Nat} {r : Text} (h : ¬ special x c) : token x st c r = .leaf (.symb c) r := by
  simp only [special, List.mem_cons, List.not_mem_nil, or_false, not_or] at h
  obtain ⟨⟨h1, h2, h3, h4, h5, h6, h7, h8, h9, h10, h11, h12, h13, h14, h15⟩, -⟩ := h
  unfold token
  rw [if_neg h1, if_neg h2, if_neg h3, if_neg h4, if_neg h5, if_neg h6, if_neg h7, if_neg h8, if_neg h9, if_neg h10, if_neg h12, if_neg h14,
    if_neg (by simp [h11, h15])]

theorem escLetter_none {c : Nat} (h : alnum c = false ∨ c = 120 ∨ c = 121 ∨ c = 89 ∨ c = 112 ∨ (48 ≤ c ∧ c ≤ 57)) : escLetter c = none := by
  have : c ∉ [100, 68, 119, 87, 115, 83, 117, 108, 116, 110, 114, 98, 66, 99, 109, 77] := by
    simp only [alnum, decide_eq_false_iff_not] at h
    simp only [List.mem_cons, List.not_mem_nil, or_false, not_or]
    omega
  simp only [List.mem_cons, List.not_mem_nil, or_false, not_or] at this
  simp [escLetter, this]

theorem escChar_ch {x : Ctx} (hx : CtxOk x) {w : Ch} {P : Nat → Prop} (hP : P 92) (h : w.Ok P) {r u : Text} (hr : w.text ++ u = 92 :: r) :
    escOther.escChar x r = .leaf (.symb w.val) u := by
  have he := getEscaped_ch hx hP h u
  have hv := Ch.val_lt h
  rw [hr] at he
  unfold escOther.escChar
  rw [he]
  dsimp only
  rw [if_neg (by omega)]
  have hl := w.len
  have e : r.drop (w.text.length - 1) = (92 :: r).drop w.text.length := by
    obtain ⟨k, hk⟩ : ∃ k, w.text.length = k + 1 := ⟨w.text.length - 1, by omega⟩
    rw [hk]; rfl
  rw [e, ← hr, List.drop_left]

theorem tok_ch {x : Ctx} (hx : CtxOk x) {st : CState} {w : Ch} (h : w.Ok (special x)) (u : Text) :
    ∃ c r, w.text ++ u = c :: r ∧ (x.extend && x.isSpace c) = false ∧ c ≠ 41 ∧ token x st c r = .leaf (.symb w.val) u := by
  have hsp : special x 92 := Or.inl (by decide)
  cases hw : w with
  | plain c =>
    subst hw
    refine ⟨c, u, rfl, ?_, ?_, tok_plain h.1⟩
    · have := h.1
      simp only [special, not_or] at this
      cases hs : x.isSpace c with
      | false => simp
      | true => cases he : x.extend with
        | false => rfl
        | true => exact absurd ⟨he, hs⟩ this.2
    · rintro rfl; exact h.1 (Or.inl (by decide))
  | esc c =>
    subst hw
    refine ⟨92, c :: u, rfl, noSpace hx (by decide), by decide, ?_⟩
    have ha := h.1
    have hlt : c < BAD := h.2
    have hx2 : getHex x c = none := by
      refine getHex_not hx (by unfold BAD at hlt; omega) ?_
      simp only [alnum, decide_eq_false_iff_not] at ha
      unfold isHex hexVal
      rw [if_neg (by omega), if_neg (by omega), if_neg (by omega)]
      rfl
    have h1 : c ≠ 121 ∧ c ≠ 89 ∧ c ≠ 112 := by
      refine ⟨?_, ?_, ?_⟩ <;> rintro rfl <;> revert ha <;> decide
    have e : ch (c :: u) 0 = c := rfl
    unfold token
    rw [if_pos rfl]
    unfold escTok
    rw [e, escLetter_none (Or.inl ha)]
    dsimp only
    rw [if_neg h1.1, if_neg h1.2.1, if_neg h1.2.2]
    unfold escOther
    rw [e, hx2]
    exact escChar_ch hx hsp h rfl
  | hex2 a b =>
    subst hw
    refine ⟨92, 120 :: a :: b :: u, rfl, noSpace hx (by decide), by decide, ?_⟩
    have hx2 : getHex x 120 = none := getHex_not hx (by decide) (by decide)
    have e : ch (120 :: a :: b :: u) 0 = 120 := rfl
    unfold token
    rw [if_pos rfl]
    unfold escTok
    rw [e, escLetter_none (by decide)]
    dsimp only
    rw [if_neg (by decide), if_neg (by decide), if_neg (by decide)]
    unfold escOther
    rw [e, hx2]
    exact escChar_ch hx hsp h rfl
  | hexN ds =>
    subst hw
    refine ⟨92, 120 :: (123 :: (ds ++ 125 :: u)), by simp [Ch.text], noSpace hx (by decide), by decide, ?_⟩
    have hx2 : getHex x 120 = none := getHex_not hx (by decide) (by decide)
    have e : ch (120 :: (123 :: (ds ++ 125 :: u))) 0 = 120 := rfl
    unfold token
    rw [if_pos rfl]
    unfold escTok
    rw [e, escLetter_none (by decide)]
    dsimp only
    rw [if_neg (by decide), if_neg (by decide), if_neg (by decide)]
    unfold escOther
    rw [e, hx2]
    exact escChar_ch hx hsp h (by simp [Ch.text])

theorem tok_ctl {x : Ctx} (st : CState) {c : Nat} (h : c ∈ [9, 10, 13]) (u : Text) : ∃ r, ctlText c ++ u = 92 :: r ∧ token x st 92 r = .leaf (.symb c) u := by
  simp only [List.mem_cons, List.not_mem_nil, or_false] at h
  rcases h with rfl | rfl | rfl
  · exact ⟨116 :: u, rfl, by simp [token, escTok, ch, escLetter]⟩
  · exact ⟨110 :: u, rfl, by simp [token, escTok, ch, escLetter]⟩
  · exact ⟨114 :: u, rfl, by simp [token, escTok, ch, escLetter]⟩

theorem tok_sym {x : Ctx} (hx : CtxOk x) (st : CState) {m : Meta} (h : m ≠ .bad) (u : Text) :
    ∃ c r, symText m ++ u = c :: r ∧ (x.extend && x.isSpace c) = false ∧ c ≠ 41 ∧ token x st c r = .leaf (.msym m) u := by
  cases m <;> first
    | exact absurd rfl h
    | exact ⟨_, _, rfl, noSpace hx (by decide), by decide, by simp [token, escTok, ch, escLetter]⟩

theorem class_read {x : Ctx} (hx : CtxOk x) {neg : Bool} {k : CR} {u : Text} (h1 : neg = false → k.text.head? ≠ some 94) (h2 : k.Ok x (93 :: u)) :
    createCharClass x false (bra neg ++ (k.text ++ [93]) ++ u) = some (some (clsOf x neg k, u)) := by
  obtain ⟨r, hr⟩ := bra_head neg (k.text ++ [93] ++ u)
  rw [List.append_assoc, hr]
  have hk := K_text hx k u (fun _ => false) BAD h2 (Or.inl rfl)
  have hb := clsBegin_bra (neg := neg) (t := k.text ++ 93 :: u) (fun e => head_append (h1 e))
  have hr' : bra neg ++ (k.text ++ 93 :: u) = 91 :: r := by rw [← hr]; simp
  rw [hr'] at hb
  unfold createCharClass
  rw [hb]
  dsimp only
  have hl : (k.text ++ 93 :: u).length ≤ (91 :: r).length := by rw [← hr']; simp
  rw [clsLoop_more x _ ((k.text ++ 93 :: u).length + 1) _ _ _ _ (by omega) (by omega)]
  unfold K at hk
  rw [hk]
  rfl

theorem tok_cls {x : Ctx} (hx : CtxOk x) (st : CState) {neg : Bool} {k : CR} {u : Text} (h1 : neg = false → k.text.head? ≠ some 94) (h2 : k.Ok x (93 :: u))
    (h3 : x.ignoreCase = false) :
    ∃ r, bra neg ++ (k.text ++ [93]) ++ u = 91 :: r ∧ token x st 91 r = .leaf (.enum (clsOf x neg k)) u := by
  have e := class_read hx h1 h2
  obtain ⟨r, hr⟩ := bra_head neg (k.text ++ [93] ++ u)
  have hr : bra neg ++ (k.text ++ [93]) ++ u = 91 :: r := by rw [List.append_assoc, hr]
  rw [hr] at e
  refine ⟨r, hr, ?_⟩
  unfold token
  simp only [Nat.reduceEqDiff, if_false, if_true, false_or]
  unfold classTok
  rw [h3, e]

theorem tok_trace {x : Ctx} (hx : CtxOk x) (st : CState) {c : Nat} (h : isHex c = true) (u : Text) :
    token x st 92 (121 :: c :: u) = .leaf (.bkTrace ((hexVal c).getD 0)) u ∧
    token x st 92 (89 :: c :: u) = .leaf (.bkTraceN ((hexVal c).getD 0)) u := by
  have e := getHex_val hx (isHex_val h)
  have key : ∀ k, ch (k :: c :: u) 1 = c := fun _ => rfl
  have key0 : ∀ k, ch (k :: c :: u) 0 = k := fun _ => rfl
  have t92 : ∀ r, token x st 92 r = escTok x st r := fun r => by unfold token; rw [if_pos rfl]
  constructor
  · rw [t92]
    unfold escTok
    rw [key0, escLetter_none (by decide)]
    dsimp only
    rw [if_pos rfl]
    unfold escTrace
    rw [key, e]
    rfl
  · rw [t92]
    unfold escTok
    rw [key0, escLetter_none (by decide)]
    dsimp only
    rw [if_neg (by decide), if_pos rfl]
    unfold escTrace
    rw [key, e]
    rfl

theorem findIdx_some {x : Ctx} {names : List Text} {n : Text} (h : ∃ m ∈ names, x.caseEq n m = true) :
    bracketNo x names n = some ((bracketNo x names n).getD 0) := by
  unfold bracketNo
  cases hf : names.findIdx? (fun m => x.caseEq n m) with
  | some k => rfl
  | none =>
    rw [List.findIdx?_eq_none_iff] at hf
    obtain ⟨m, hm, he⟩ := h
    have := hf m hm
    rw [he] at this
    cases this

theorem drop_name (n u : Text) (c d : Nat) : (c :: d :: (n ++ 125 :: u)).drop (n.length + 3) = u := by
  have e : c :: d :: (n ++ 125 :: u) = (c :: d :: (n ++ [125])) ++ u := by simp
  rw [e]
  exact List.drop_left' (by simp)

theorem tok_traceName {x : Ctx} (hx : CtxOk x) (st : CState) {n : Text} (h : NameOk x n) {names : List Text} (hb : x.back = some names)
    (hm : ∃ m ∈ names, x.caseEq n m = true) (u : Text) :
    token x st 92 (121 :: 123 :: (n ++ 125 :: u)) = .leaf (.bkTraceName ((bracketNo x names n).getD 0)) u := by
  have e := getCurly_name h u
  have e1 : getHex x 123 = none := getHex_not hx (by decide) (by decide)
  have e2 := findIdx_some hm
  have e3 : (121 :: 123 :: (n ++ 125 :: u)).drop 1 = 123 :: (n ++ 125 :: u) := rfl
  unfold token
  rw [if_pos rfl]
  unfold escTok
  have e0 : ch (121 :: 123 :: (n ++ 125 :: u)) 0 = 121 := rfl
  have e4 : ch (121 :: 123 :: (n ++ 125 :: u)) 1 = 123 := rfl
  rw [e0, escLetter_none (by decide)]
  dsimp only
  rw [if_pos rfl]
  unfold escTrace
  rw [e4, e1, e3, e, hb]
  dsimp only
  rw [e2]
  dsimp only
  rw [drop_name]
  rfl

theorem tok_ref {x : Ctx} (hx : CtxOk x) (st : CState) {d : Nat} (h : d ≤ 9) (u : Text) : token x st 92 ((48 + d) :: u) = .leaf (.bkBrack d) u := by
  have e : getHex x (48 + d) = some d := by
    refine getHex_val hx ?_
    unfold hexVal
    rw [if_pos (by omega)]
    congr 1
    omega
  have e0 : ch ((48 + d) :: u) 0 = 48 + d := rfl
  unfold token
  rw [if_pos rfl]
  unfold escTok
  rw [e0, escLetter_none (by omega)]
  dsimp only
  rw [if_neg (by omega), if_neg (by omega), if_neg (by omega)]
  unfold escOther
  rw [e0, e]
  dsimp only
  rw [if_pos h]
  rfl

theorem tok_refName {x : Ctx} (st : CState) {n : Text} (h : NameOk x n) (hm : ∃ m ∈ st.names, x.caseEq n m = true) (u : Text) :
    token x st 92 (112 :: 123 :: (n ++ 125 :: u)) = .leaf (.bkBrackName ((bracketNo x st.names n).getD 0)) u := by
  have e := getCurly_name h u
  have e2 := findIdx_some hm
  have e3 : (112 :: 123 :: (n ++ 125 :: u)).drop 1 = 123 :: (n ++ 125 :: u) := rfl
  unfold token
  rw [if_pos rfl]
  unfold escTok
  have e0 : ch (112 :: 123 :: (n ++ 125 :: u)) 0 = 112 := rfl
  rw [e0, escLetter_none (by decide)]
  dsimp only
  rw [if_neg (by decide), if_neg (by decide), if_pos rfl]
  unfold escName
  rw [e3, e]
  dsimp only
  rw [e2]
  dsimp only
  rw [drop_name]
  rfl

/-! ## Operators -/

theorem span_at {p : Nat → Bool} {a r : Text} {b : Nat} (ha : ∀ c ∈ a, p c = true) (hb : p b = false) : (a ++ b :: r).span p = (a, b :: r) := by
  rw [List.span_eq_takeWhile_dropWhile]
  congr 1
  · rw [List.takeWhile_append_of_pos ha]; simp [hb]
  · rw [List.dropWhile_append_of_pos ha]; simp [hb]

theorem span_all {p : Nat → Bool} {a : Text} (ha : ∀ c ∈ a, p c = true) : a.span p = (a, []) := by
  have e : a.takeWhile p = a := by
    clear * - ha
    induction a with
    | nil => rfl
    | cons b a ih => rw [List.takeWhile_cons, ha b (List.mem_cons_self ..), if_pos rfl, ih fun c hc => ha c (List.mem_cons_of_mem _ hc)]
  have e2 : a.dropWhile p = [] := by
    have := List.takeWhile_append_dropWhile (p := p) (l := a)
    rw [e] at this
    simpa using this
  rw [List.span_eq_takeWhile_dropWhile, e, e2]

theorem digit_ne {n : Text} (h : n.all isDigitC = true) {k : Nat} (hk : isDigitC k = false) : ∀ c ∈ n, decide (c ≠ k) = true := by
  intro c hc
  have := List.all_eq_true.1 h c hc
  simp only [decide_eq_true_eq]
  rintro rfl
  rw [hk] at this
  cases this

theorem getNumber_val {n : Text} (h : n.all isDigitC = true) : getNumber n = some (decNum n) := by
  unfold getNumber decNum
  rw [if_pos h]

theorem braces_lz {content u : Text} {z : Bool} {n : Node} (hc : ∀ c ∈ content, decide (c ≠ 125) = true) (hz : lzOk z u)
    (hn : bracesNode content z = some n) : bracesTok (content ++ 125 :: (lz z ++ u)) = .leaf n u := by
  unfold bracesTok
  rw [span_at hc (by decide)]
  dsimp only
  cases z with
  | true =>
    have e : ch (lz true ++ u) 0 = 63 := rfl
    rw [e]
    simp only [decide_true, if_true]
    rw [hn]
    rfl
  | false =>
    have e : ch (lz false ++ u) 0 ≠ 63 := by
      have := hz rfl
      cases u with
      | nil => decide
      | cons c u => simpa [lz, ch] using this
    have e2 : decide (ch (lz false ++ u) 0 = 63) = false := by simp [e]
    rw [e2, hn]
    dsimp only
    rw [if_neg e]
    rfl

theorem tok_star {u : Text} {z : Bool} (hz : lzOk z u) (s : Int) : starTok s (lz z ++ u) = .leaf (if z then .ngRangeN s [] else .rangeN s []) u := by
  unfold starTok
  cases z with
  | true =>
    have e : ch (lz true ++ u) 0 = 63 := rfl
    rw [e, if_pos rfl]; rfl
  | false =>
    have e : ch (lz false ++ u) 0 ≠ 63 := by
      have := hz rfl
      cases u with
      | nil => decide
      | cons c u => simpa [lz, ch] using this
    rw [if_neg e]; rfl

theorem tok_op {x : Ctx} (hx : CtxOk x) (st : CState) (o : Op) (u : Text) (h : o.Ok u) :
    ∃ c r, o.text ++ u = c :: r ∧ (x.extend && x.isSpace c) = false ∧ c ≠ 41 ∧ token x st c r = .leaf (o.node []) u := by
  have t123 : ∀ r, token x st 123 r = bracesTok r := by intro r; simp [token]
  have t63 : ∀ r, token x st 63 r = questTok r := by intro r; simp [token]
  cases o with
  | many z =>
    refine ⟨42, lz z ++ u, rfl, noSpace hx (by decide), by decide, ?_⟩
    have : ∀ r, token x st 42 r = starTok 0 r := by intro r; simp [token]
    rw [this, tok_star h]; rfl
  | many1 z =>
    refine ⟨43, lz z ++ u, rfl, noSpace hx (by decide), by decide, ?_⟩
    have : ∀ r, token x st 43 r = starTok 1 r := by intro r; simp [token]
    rw [this, tok_star h]; rfl
  | maybe z =>
    refine ⟨63, lz z ++ u, rfl, noSpace hx (by decide), by decide, ?_⟩
    rw [t63]
    cases z with
    | true => simp [questTok, lz, ch, Op.node]
    | false =>
      obtain ⟨h1, h2⟩ := h rfl
      show questTok u = _
      unfold questTok
      have e0 : ch u 0 ≠ 61 ∧ ch u 0 ≠ 33 ∧ ch u 0 ≠ 63 := by
        cases u with
        | nil => decide
        | cons c u =>
          have := h1 c rfl
          simp only [List.mem_cons, List.not_mem_nil, or_false, not_or] at this
          exact ⟨this.2.1, this.2.2, this.1⟩
      have e1 : ∀ k, k ∈ [35, 126] → ¬ (ch u 0 = k ∧ isDigitC (ch u 1) = true) := by
        rintro k hk ⟨a, b⟩
        match u with
        | [] => revert a; simp only [List.mem_cons, List.not_mem_nil, or_false] at hk; rcases hk with rfl | rfl <;> decide
        | [c] => revert b; show ¬ isDigitC BAD = true; decide
        | c :: d :: v =>
          have a : c = k := a
          have b : isDigitC d = true := b
          have := h2 c d v rfl (by rw [a]; exact hk)
          rw [b] at this
          cases this
      rw [if_neg (e1 35 (by decide)), if_neg (e1 126 (by decide)), if_neg e0.1, if_neg e0.2.1, if_neg e0.2.2]
      rfl
  | exactly n z =>
    obtain ⟨h1, h2, h3⟩ := h
    refine ⟨123, n ++ 125 :: (lz z ++ u), by simp [Op.text], noSpace hx (by decide), by decide, ?_⟩
    rw [t123]
    refine braces_lz (digit_ne h2 (by decide)) h3 ?_
    unfold bracesNode
    rw [span_all (fun c hc => digit_ne h2 (by decide) c (List.mem_reverse.1 hc))]
    dsimp only
    rw [getNumber_val h2]
    rfl
  | atLeast n z =>
    obtain ⟨h2, h3⟩ := h
    refine ⟨123, (n ++ [44]) ++ 125 :: (lz z ++ u), by simp [Op.text], noSpace hx (by decide), by decide, ?_⟩
    rw [t123]
    refine braces_lz ?_ h3 ?_
    · intro c hc
      rcases List.mem_append.1 hc with hc | hc
      · exact digit_ne h2 (by decide) c hc
      · simp only [List.mem_singleton] at hc; subst hc; decide
    unfold bracesNode
    have e : (n ++ [44]).reverse = [] ++ 44 :: n.reverse := by simp
    rw [e, span_at (by simp) (by decide)]
    dsimp only
    rw [List.reverse_reverse, getNumber_val h2]
    rfl
  | between n m z =>
    obtain ⟨h2, h4, h5, h3⟩ := h
    refine ⟨123, (n ++ 44 :: m) ++ 125 :: (lz z ++ u), by simp [Op.text], noSpace hx (by decide), by decide, ?_⟩
    rw [t123]
    refine braces_lz ?_ h3 ?_
    · intro c hc
      rcases List.mem_append.1 hc with hc | hc
      · exact digit_ne h2 (by decide) c hc
      · rcases List.mem_cons.1 hc with rfl | hc
        · decide
        · exact digit_ne h5 (by decide) c hc
    unfold bracesNode
    have e : (n ++ 44 :: m).reverse = m.reverse ++ 44 :: n.reverse := by simp
    have h6 : m.reverse.isEmpty = false := by
      cases hm : m.reverse with
      | nil => exact absurd (List.reverse_eq_nil_iff.1 hm) h4
      | cons => rfl
    rw [e, span_at (fun c hc => digit_ne h5 (by decide) c (List.mem_reverse.1 hc)) (by decide)]
    dsimp only
    rw [List.reverse_reverse, getNumber_val h2, h6]
    simp only [Bool.false_eq_true, if_false]
    rw [List.reverse_reverse, getNumber_val h5]
    rfl
  | ahead => exact ⟨63, 61 :: u, rfl, noSpace hx (by decide), by decide, by rw [t63]; simp [questTok, ch, Op.node]⟩
  | nahead => exact ⟨63, 33 :: u, rfl, noSpace hx (by decide), by decide, by rw [t63]; simp [questTok, ch, Op.node]⟩
  | behind d =>
    have h : d ≤ 9 := h
    refine ⟨63, 35 :: (48 + d) :: u, rfl, noSpace hx (by decide), by decide, ?_⟩
    rw [t63]
    have : 48 + d ≤ 57 := by omega
    simp [questTok, ch, Op.node, isDigitC, this]
  | nbehind d =>
    have h : d ≤ 9 := h
    refine ⟨63, 126 :: (48 + d) :: u, rfl, noSpace hx (by decide), by decide, ?_⟩
    rw [t63]
    have : 48 + d ≤ 57 := by omega
    simp [questTok, ch, Op.node, isDigitC, this]

/-! ## Expressions -/

/-- what reading `e` with `u` behind it gives -/
def Reads (x : Ctx) (st : CState) (e : Re) (u : Text) : Prop :=
  ∃ segs : List (List Node × List Node), segs ≠ [] ∧ (∀ s ∈ segs, Seg s.1 s.2) ∧
    S x st (e.text ++ u) = pushAll (joinOr (segs.map Prod.fst)) (S x (e.after st) u) ∧
    plain (altTree (segs.map Prod.snd)) = plain (e.tree x st) ∧
    (e.isAlt = false → ∃ s, segs = [s]) ∧ (e.unit = true → ∃ l n, segs = [(l, [n])]) ∧ (e.blank = true → segs = [([], [])])

theorem reads_leaf {x : Ctx} {st : CState} {e : Re} {u : Text} {n m : Node} (hn : isOp n = false) (h1 : S x st (e.text ++ u) = (S x (e.after st) u).push n)
    (h2 : e.tree x st = [m]) (h3 : plainN n = plainN m) (h4 : e.blank = false) : Reads x st e u := by
  refine ⟨[([n], [n])], by simp, ?_, h1, ?_, fun _ => ⟨_, rfl⟩, fun _ => ⟨_, _, rfl⟩, fun h => ?_⟩
  · intro s hs
    simp only [List.mem_singleton] at hs
    subst hs
    exact seg_leaf hn
  · rw [h2]; simp [altTree, plain, h3]
  · rw [h4] at h; cases h

theorem reads_group {x : Ctx} (hx : CtxOk x) {st st1 : CState} {e a : Re} {u : Text} {mk : List Node → Node} {c : Nat} {r : Text}
    (hop : ∀ b, isOp (mk b) = false) (hpl : ∀ b b', plain b = plain b' → plainN (mk b) = plainN (mk b'))
    (ht : e.text ++ u = c :: r) (hs : (x.extend && x.isSpace c) = false) (hc : c ≠ 41)
    (htok : token x st c r = .opens mk st1 (a.text ++ 41 :: u)) (ha : Reads x st1 a (41 :: u)) (hst : e.after st = a.after st1)
    (htr : e.tree x st = [mk (a.tree x st1)]) (h4 : e.blank = false) : Reads x st e u := by
  obtain ⟨segs, h1, h2, h3, h5, -⟩ := ha
  obtain ⟨R, hR, hp⟩ := finish_alts (x := x) (t := a.text ++ 41 :: u) h2 h1 (fun e => by simp at e)
  refine reads_leaf (n := mk R) (hop R) ?_ htr (hpl _ _ (by rw [hp, h5])) h4
  rw [ht, S_cons, hs, if_neg (by simp), if_neg hc, htok]
  dsimp only
  rw [h3, S_close hx, pushAll_ok]
  dsimp only
  rw [List.append_nil, hR, hst]

theorem head_ok {x : Ctx} (hx : CtxOk x) (e : Re) : ∀ (st : CState) (u : Text), e.Ok x st u → e.text.head? ≠ some 63 ∧ (e.unit = true → e.text ≠ []) := by
  induction e with
  | eps => intro st u _; exact ⟨by simp [Re.text], (fun h => by cases h)⟩
  | space c =>
    intro st u h
    refine ⟨fun e => ?_, (fun h => by cases h)⟩
    simp only [Re.text, List.head?_cons, Option.some.injEq] at e
    subst e
    exact hx.space _ h.2 (by decide)
  | chr w =>
    intro st u h
    refine ⟨?_, fun _ e => ?_⟩
    · cases w with
      | plain c =>
        intro e
        simp only [Re.text, Ch.text, List.head?_cons, Option.some.injEq] at e
        subst e
        exact h.1 (Or.inl (by decide))
      | esc c => simp [Re.text, Ch.text]
      | hex2 a b => simp [Re.text, Ch.text]
      | hexN ds => simp [Re.text, Ch.text]
    · cases w <;> simp [Re.text, Ch.text] at e
  | ctl c => intro st u h; simp only [Re.text, ctlText]; split <;> [skip; split] <;> simp
  | sym m => intro st u h; cases m <;> first | exact absurd rfl h | simp [Re.text, symText]
  | cls neg k => intro st u h; cases neg <;> simp [Re.text, bra]
  | group a _ => intro st u h; simp [Re.text]
  | bare a _ => intro st u h; simp [Re.text]
  | named n a _ => intro st u h; simp [Re.text]
  | trace c => intro st u h; simp [Re.text]
  | traceN c => intro st u h; simp [Re.text]
  | traceName n => intro st u h; simp [Re.text]
  | ref d => intro st u h; simp [Re.text]
  | refName n => intro st u h; simp [Re.text]
  | cat a b iha ihb =>
    intro st u h
    obtain ⟨h1, h2, h3, h4⟩ := h
    obtain ⟨a1, a2⟩ := iha _ _ h3
    obtain ⟨b1, b2⟩ := ihb _ _ h4
    refine ⟨?_, fun hu => ?_⟩
    · rw [Re.text, List.head?_append]
      cases ha : a.text.head? with
      | none => simpa using b1
      | some c => rw [ha] at a1; simpa using a1
    · simp only [Re.unit, Bool.or_eq_true, Bool.and_eq_true] at hu
      simp only [Re.text, ne_eq, List.append_eq_nil_iff, not_and]
      rcases hu with ⟨hu, -⟩ | ⟨-, hu⟩
      · exact fun e => absurd e (a2 hu)
      · exact fun _ => b2 hu
  | alt a b iha ihb =>
    intro st u h
    obtain ⟨h1, h3, h4⟩ := h
    obtain ⟨a1, a2⟩ := iha _ _ h3
    refine ⟨?_, (fun h => by cases h)⟩
    rw [Re.text, List.head?_append]
    cases ha : a.text.head? with
    | none => simp
    | some c => rw [ha] at a1; simpa using a1
  | post a o ih =>
    intro st u h
    obtain ⟨h1, h2, h3⟩ := h
    obtain ⟨a1, a2⟩ := ih _ _ h2
    have a2 := a2 h1
    refine ⟨?_, fun _ e => a2 (List.append_eq_nil_iff.1 e).1⟩
    rw [Re.text, List.head?_append]
    cases ha : a.text with
    | nil => exact absurd ha a2
    | cons c r => rw [ha] at a1; simpa using a1

theorem reads {x : Ctx} (hx : CtxOk x) (e : Re) : ∀ (st : CState) (u : Text), e.Ok x st u → Reads x st e u := by
  induction e with
  | eps =>
    intro st u _
    refine ⟨[([], [])], by simp, ?_, rfl, rfl, fun _ => ⟨_, rfl⟩, fun h => by simp [Re.unit] at h, fun _ => rfl⟩
    intro s hs
    simp only [List.mem_singleton] at hs
    subst hs
    exact seg_nil
  | space c =>
    intro st u h
    refine ⟨[([], [])], by simp, ?_, ?_, rfl, fun _ => ⟨_, rfl⟩, fun h => by simp [Re.unit] at h, fun _ => rfl⟩
    · intro s hs
      simp only [List.mem_singleton] at hs
      subst hs
      exact seg_nil
    · exact S_space (by rw [h.1, h.2]; rfl)
  | chr w =>
    intro st u h
    obtain ⟨c, r, h1, h2, h3, h4⟩ := tok_ch hx (st := st) h u
    exact reads_leaf (n := .symb w.val) rfl (by rw [Re.text, h1]; exact S_leaf h2 h3 h4) rfl rfl rfl
  | ctl c =>
    intro st u h
    obtain ⟨r, h1, h4⟩ := tok_ctl (x := x) st h u
    exact reads_leaf (n := .symb c) rfl (by rw [Re.text, h1]; exact S_leaf (noSpace hx (by decide)) (by decide) h4) rfl rfl rfl
  | sym m =>
    intro st u h
    obtain ⟨c, r, h1, h2, h3, h4⟩ := tok_sym hx st h u
    exact reads_leaf (n := .msym m) rfl (by rw [Re.text, h1]; exact S_leaf h2 h3 h4) rfl rfl rfl
  | cls neg k =>
    intro st u h
    obtain ⟨r, h1, h4⟩ := tok_cls hx st h.1 h.2.1 h.2.2
    exact reads_leaf (n := .enum (clsOf x neg k)) rfl (by rw [Re.text, h1]; exact S_leaf (noSpace hx (by decide)) (by decide) h4) rfl rfl rfl
  | group a ih =>
    intro st u h
    have h1 : st.cMatch < 16 := h.1
    refine reads_group hx (mk := .brackets (some st.cMatch)) (c := 40) (r := a.text ++ 41 :: u) (fun _ => rfl) (fun b b' e => by simp [plainN, e])
      (by simp [Re.text]) (noSpace hx (by decide)) (by decide) ?_ (ih _ _ h.2) rfl rfl rfl
    have e40 : ∀ r, token x st 40 r = openTok x st r := by intro r; simp [token]
    have hq : ch (a.text ++ 41 :: u) 0 ≠ 63 := by
      have := (head_ok hx a _ _ h.2).1
      cases ht : a.text with
      | nil => show (41 : Nat) ≠ 63; decide
      | cons c r => rw [ht] at this; simpa [ch] using this
    rw [e40]
    unfold openTok
    rw [if_neg (fun h => hq h.1), if_neg (fun h => hq h.1), if_pos (show st.cMatch < MATCHES from h1)]
  | bare a ih =>
    intro st u h
    refine reads_group hx (mk := .named none) (c := 40) (r := 63 :: 58 :: (a.text ++ 41 :: u)) (fun _ => rfl) (fun b b' e => by simp [plainN, e]) (by simp [Re.text])
      (noSpace hx (by decide)) (by decide) ?_ (ih _ _ h) rfl rfl rfl
    simp [token, openTok, ch]
  | named n a ih =>
    intro st u h
    obtain ⟨h1, h2, h3, h4⟩ := h
    refine reads_group hx (mk := .named (some st.names.length)) (c := 40) (r := 63 :: 123 :: (n ++ 125 :: (a.text ++ 41 :: u))) (fun _ => rfl)
      (fun b b' e => by simp [plainN, e]) (by simp [Re.text]) (noSpace hx (by decide)) (by decide) ?_ (ih _ _ h4) rfl rfl rfl
    have e := getCurly_name h2 (a.text ++ 41 :: u)
    have hn : n.isEmpty = false := by cases n with | nil => exact absurd rfl h1 | cons => rfl
    have e40 : ∀ r, token x st 40 r = openTok x st r := by intro r; simp [token]
    rw [e40]
    unfold openTok
    rw [if_neg (by simp [ch]), if_pos (by simp [ch])]
    have ed : (63 :: 123 :: (n ++ 125 :: (a.text ++ 41 :: u))).drop 1 = 123 :: (n ++ 125 :: (a.text ++ 41 :: u)) := rfl
    rw [ed, e]
    simp only [hn, Bool.false_eq_true, if_false]
    rw [if_pos (show st.names.length < MATCHES from h3), drop_name]
  | trace c =>
    intro st u h
    exact reads_leaf (n := .bkTrace ((hexVal c).getD 0)) rfl
      (S_leaf (c := 92) (r := 121 :: c :: u) (noSpace hx (by decide)) (by decide) (tok_trace hx st h u).1) rfl rfl rfl
  | traceN c =>
    intro st u h
    exact reads_leaf (n := .bkTraceN ((hexVal c).getD 0)) rfl
      (S_leaf (c := 92) (r := 89 :: c :: u) (noSpace hx (by decide)) (by decide) (tok_trace hx st h u).2) rfl rfl rfl
  | traceName n =>
    intro st u h
    obtain ⟨h1, names, h2, h3⟩ := h
    refine reads_leaf (n := .bkTraceName ((bracketNo x names n).getD 0)) rfl ?_ (m := .bkTraceName ((bracketNo x (x.back.getD []) n).getD 0)) rfl ?_ rfl
    · have := S_leaf (noSpace hx (by decide)) (by decide) (tok_traceName hx st h1 h2 h3 u)
      simpa [Re.text, Re.after] using this
    · rw [h2]; rfl
  | ref d =>
    intro st u h
    exact reads_leaf (n := .bkBrack d) rfl (S_leaf (c := 92) (r := (48 + d) :: u) (noSpace hx (by decide)) (by decide) (tok_ref hx st h u)) rfl rfl rfl
  | refName n =>
    intro st u h
    refine reads_leaf (n := .bkBrackName ((bracketNo x st.names n).getD 0)) rfl ?_ rfl rfl rfl
    have := S_leaf (noSpace hx (by decide)) (by decide) (tok_refName st h.1 h.2 u)
    simpa [Re.text, Re.after] using this
  | cat a b iha ihb =>
    intro st u h
    obtain ⟨h1, h2, h3, h4⟩ := h
    obtain ⟨sa, -, a2, a3, a4, a5, a6, a7⟩ := iha _ _ h3
    obtain ⟨sb, -, b2, b3, b4, b5, b6, b7⟩ := ihb _ _ h4
    obtain ⟨⟨la, da⟩, rfl⟩ := a5 h1
    obtain ⟨⟨lb, db⟩, rfl⟩ := b5 h2
    have ha := a2 _ (List.mem_singleton.2 rfl)
    have hb := b2 _ (List.mem_singleton.2 rfl)
    refine ⟨[(la ++ lb, da ++ db)], by simp, ?_, ?_, ?_, fun _ => ⟨_, rfl⟩, ?_, ?_⟩
    · intro s hs
      simp only [List.mem_singleton] at hs
      subst hs
      exact seg_append ha hb
    · simp only [Re.text, List.append_assoc, List.map_cons, List.map_nil, joinOr, Re.after] at a3 b3 ⊢
      rw [a3, b3, pushAll_append]
    · simp only [List.map_cons, List.map_nil, altTree, Re.tree] at a4 b4 ⊢
      rw [plain_append, plain_append, a4, b4]
    · intro hu
      simp only [Re.unit, Bool.or_eq_true, Bool.and_eq_true] at hu
      rcases hu with ⟨hu1, hu2⟩ | ⟨hu1, hu2⟩
      · obtain ⟨l, n, e⟩ := a6 hu1
        have e2 := b7 hu2
        cases e; cases e2
        exact ⟨_, n, by simp; rfl⟩
      · obtain ⟨l, n, e⟩ := b6 hu2
        have e2 := a7 hu1
        cases e; cases e2
        exact ⟨_, n, by simp; rfl⟩
    · intro hu
      simp only [Re.blank, Bool.and_eq_true] at hu
      have e1 := a7 hu.1
      have e2 := b7 hu.2
      cases e1; cases e2
      rfl
  | alt a b iha ihb =>
    intro st u h
    obtain ⟨h1, h3, h4⟩ := h
    obtain ⟨sa, -, a2, a3, a4, a5, a6, a7⟩ := iha _ _ h3
    obtain ⟨sb, b1, b2, b3, b4, -⟩ := ihb _ _ h4
    obtain ⟨⟨la, da⟩, rfl⟩ := a5 h1
    have ha := a2 _ (List.mem_singleton.2 rfl)
    refine ⟨(la, da) :: sb, by simp, ?_, ?_, ?_, (fun h => by cases h), (fun h => by cases h), (fun h => by cases h)⟩
    · intro s hs
      rcases List.mem_cons.1 hs with rfl | hs
      · exact ha
      · exact b2 s hs
    · have hor : S x (a.after st) (124 :: (b.text ++ u)) = (S x (a.after st) (b.text ++ u)).push (.or []) :=
        S_leaf (noSpace hx (by decide)) (by decide) (by simp [token])
      simp only [Re.text, List.append_assoc, List.cons_append, List.map_cons, List.map_nil, joinOr, Re.after] at a3 b3 ⊢
      rw [a3, hor, b3]
      cases sb with
      | nil => exact absurd rfl b1
      | cons s t => simp only [List.map_cons, joinOr, pushAll_append, pushAll]
    · cases sb with
      | nil => exact absurd rfl b1
      | cons s t =>
        simp only [List.map_cons, List.map_nil, altTree, Re.tree] at a4 b4 ⊢
        simp only [plain, plainN, a4, b4]
  | post a o ih =>
    intro st u h
    obtain ⟨h1, h2, h3⟩ := h
    obtain ⟨sa, -, a2, a3, a4, -, a6, -⟩ := ih _ _ h2
    obtain ⟨l, n, rfl⟩ := a6 h1
    have ha := a2 _ (List.mem_singleton.2 rfl)
    obtain ⟨c, r, e1, e2, e3, e4⟩ := tok_op hx (a.after st) o u h3
    obtain ⟨o1, o2, o3⟩ := op_isOp o []
    refine ⟨[(l ++ [o.node []], [o.node [n]])], by simp, ?_, ?_, ?_, fun _ => ⟨_, rfl⟩, fun _ => ⟨_, _, rfl⟩, fun h => by cases h⟩
    · intro s hs
      simp only [List.mem_singleton] at hs
      subst hs
      have := seg_op ha o1 o2
      rw [o3] at this
      exact this
    · simp only [Re.text, List.append_assoc, List.map_cons, List.map_nil, joinOr, Re.after] at a3 ⊢
      rw [a3, e1, S_leaf e2 e3 e4, pushAll_append]
      rfl
    · simp only [List.map_cons, List.map_nil, altTree, Re.tree] at a4 ⊢
      simp only [plain, op_plain o a4]

end Verif.RegExp
