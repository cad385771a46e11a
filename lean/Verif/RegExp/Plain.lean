import Verif.RegExp.Syntax
import Verif.RegExp.Ends

/-!
# Words and empty nodes do not matter

`plain l`: the chain `l` with each word written as symbols and without the empty nodes. It matches the same texts, and it is in the same
fragments.
-/
set_option linter.unusedSimpArgs false

namespace Verif.RegExp

mutual
def plain : List Node → List Node
  | [] => []
  | n :: r => plainN n ++ plain r
def plainN : Node → List Node
  | .empty => []
  | .word w => w.map .symb
  | .msym k => [.msym k]
  | .symb c => [.symb c]
  | .enum c => [.enum c]
  | .nenum c => [.nenum c]
  | .bkTrace k => [.bkTrace k]
  | .bkTraceN k => [.bkTraceN k]
  | .bkTraceName k => [.bkTraceName k]
  | .bkTraceNName k => [.bkTraceNName k]
  | .bkBrack k => [.bkBrack k]
  | .bkBrackName k => [.bkBrackName k]
  | .brackets i b => [.brackets i (plain b)]
  | .named i b => [.named i (plain b)]
  | .ahead b => [.ahead (plain b)]
  | .nahead b => [.nahead (plain b)]
  | .behind k b => [.behind k (plain b)]
  | .nbehind k b => [.nbehind k (plain b)]
  | .or b => [.or (plain b)]
  | .rangeN s b => [.rangeN s (plain b)]
  | .rangeNM s e b => [.rangeNM s e (plain b)]
  | .ngRangeN s b => [.ngRangeN s (plain b)]
  | .ngRangeNM s e b => [.ngRangeNM s e (plain b)]
end

theorem plain_append (l k : List Node) : plain (l ++ k) = plain l ++ plain k := by
  induction l with
  | nil => rfl
  | cons a r ih => simp only [List.cons_append, plain, ih, List.append_assoc]

theorem plain_symbs (w : Text) : plain (w.map .symb) = w.map .symb := by
  induction w with
  | nil => rfl
  | cons c w ih => simp [plain, plainN, ih]

/-! ## Fragments -/

theorem simple_append (l k : List Node) : simple (l ++ k) = (simple l && simple k) := by
  induction l with
  | nil => rfl
  | cons a r ih => simp only [List.cons_append, simple, ih, Bool.and_assoc]

theorem simple_symbs (w : Text) : simple (w.map .symb) = true := by
  induction w with
  | nil => rfl
  | cons c w ih => simp [simple, simpleN, ih]

mutual
theorem simple_plain : ∀ l : List Node, simple (plain l) = simple l
  | [] => rfl
  | n :: r => by rw [plain, simple_append, simple, simple_plain r, simple_plainN n]
theorem simple_plainN : ∀ n : Node, simple (plainN n) = simpleN n
  | .empty => rfl
  | .word w => by rw [plainN, simple_symbs, simpleN]
  | .brackets i b => by simp only [plainN, simple, simpleN, simple_plain b, Bool.and_true]
  | .named i b => by simp only [plainN, simple, simpleN, simple_plain b, Bool.and_true]
  | .msym _ | .symb _ | .enum _ | .nenum _ | .bkTrace _ | .bkTraceN _ | .bkTraceName _ | .bkTraceNName _ | .bkBrack _ | .bkBrackName _ | .ahead _
  | .nahead _ | .behind _ _ | .nbehind _ _ | .or _ | .rangeN _ _ | .rangeNM _ _ _ | .ngRangeN _ _ | .ngRangeNM _ _ _ => by
    simp only [plainN, simple, simpleN, Bool.and_true]
end

theorem minLen_append (l k : List Node) (h : ∀ n ∈ l, isOr n = false) : minLen (l ++ k) = minLen l + minLen k := by
  induction l with
  | nil => simp [minLen]
  | cons a r ih =>
    simp only [List.cons_append, minLen, h a List.mem_cons_self, Bool.false_eq_true, if_false]
    rw [ih fun n hn => h n (List.mem_cons_of_mem _ hn)]
    omega

theorem minLen_symbs (w : Text) : minLen (w.map .symb) = w.length := by
  induction w with
  | nil => rfl
  | cons c w ih => simp [minLen, isOr, minLenN, ih]; omega

theorem plainN_noOr {n : Node} (h : isOr n = false) : ∀ m ∈ plainN n, isOr m = false := by
  cases n <;> simp only [plainN, List.mem_singleton, List.mem_map, List.not_mem_nil, forall_eq, isOr, false_imp_iff, implies_true]
  case word w => rintro m ⟨c, -, rfl⟩; rfl
  case or b => cases h

theorem plainN_or {n : Node} (h : isOr n = true) : ∃ b, n = .or b := by
  cases n <;> first
    | exact ⟨_, rfl⟩
    | cases h

mutual
theorem minLen_plain : ∀ l : List Node, minLen (plain l) = minLen l
  | [] => rfl
  | n :: r => by
    cases h : isOr n with
    | true =>
      have e := (minLen_plainN n).2
      obtain ⟨b, rfl⟩ := plainN_or h
      rw [plain, minLen, h, if_pos rfl, ← minLen_plain r]
      simp [plainN, minLen, isOr, minLenN, e b rfl]
    | false =>
      rw [plain, minLen_append _ _ (plainN_noOr h), minLen, h, if_neg (by simp), (minLen_plainN n).1 h, minLen_plain r]
theorem minLen_plainN : ∀ n : Node, (isOr n = false → minLen (plainN n) = minLenN n) ∧ (∀ b, n = .or b → minLen (plain b) = minLen b)
  | .or b => ⟨(fun h => by cases h), (fun c h => by cases h; exact minLen_plain b)⟩
  | .empty => ⟨fun _ => rfl, fun c h => by cases h⟩
  | .word w => ⟨fun _ => by rw [plainN, minLen_symbs, minLenN], fun c h => by cases h⟩
  | .brackets i b => ⟨fun _ => by simp [plainN, minLen, isOr, minLenN, minLen_plain b], fun c h => by cases h⟩
  | .named i b => ⟨fun _ => by simp [plainN, minLen, isOr, minLenN, minLen_plain b], fun c h => by cases h⟩
  | .rangeN _ b => ⟨fun _ => by simp [plainN, minLen, isOr, minLenN, minLen_plain b], fun c h => by cases h⟩
  | .rangeNM _ _ b => ⟨fun _ => by simp [plainN, minLen, isOr, minLenN, minLen_plain b], fun c h => by cases h⟩
  | .ngRangeN _ b => ⟨fun _ => by simp [plainN, minLen, isOr, minLenN, minLen_plain b], fun c h => by cases h⟩
  | .ngRangeNM _ _ b => ⟨fun _ => by simp [plainN, minLen, isOr, minLenN, minLen_plain b], fun c h => by cases h⟩
  | .msym _ | .symb _ | .enum _ | .nenum _ | .bkTrace _ | .bkTraceN _ | .bkTraceName _ | .bkTraceNName _ | .bkBrack _ | .bkBrackName _ | .ahead _
  | .nahead _ | .behind _ _ | .nbehind _ _ => ⟨fun _ => by simp [plainN, minLen, isOr, minLenN], fun c h => by cases h⟩
end

theorem takes_append (l k : List Node) (h : ∀ n ∈ l, isOr n = false) : takes (l ++ k) = (takes l || takes k) := by
  induction l with
  | nil => simp [takes]
  | cons a r ih =>
    simp only [List.cons_append, takes, h a List.mem_cons_self, Bool.false_eq_true, if_false]
    rw [ih fun n hn => h n (List.mem_cons_of_mem _ hn), Bool.or_assoc]

theorem takes_symbs (w : Text) : takes (w.map .symb) = !w.isEmpty := by
  cases w with
  | nil => rfl
  | cons c w => simp [takes, isOr, takesN]

mutual
theorem takes_plain : ∀ l : List Node, takes (plain l) = takes l
  | [] => rfl
  | n :: r => by
    cases h : isOr n with
    | true =>
      have e := (takes_plainN n).2
      obtain ⟨b, rfl⟩ := plainN_or h
      rw [plain, takes, h, if_pos rfl, ← takes_plain r]
      simp [plainN, takes, isOr, takesN, e b rfl]
    | false =>
      rw [plain, takes_append _ _ (plainN_noOr h), takes, h, if_neg (by simp), (takes_plainN n).1 h, takes_plain r]
theorem takes_plainN : ∀ n : Node, (isOr n = false → takes (plainN n) = takesN n) ∧ (∀ b, n = .or b → takes (plain b) = takes b)
  | .or b => ⟨(fun h => by cases h), (fun c h => by cases h; exact takes_plain b)⟩
  | .empty => ⟨fun _ => rfl, fun c h => by cases h⟩
  | .word w => ⟨fun _ => by rw [plainN, takes_symbs, takesN], fun c h => by cases h⟩
  | .brackets i b => ⟨fun _ => by simp [plainN, takes, isOr, takesN, takes_plain b], fun c h => by cases h⟩
  | .named i b => ⟨fun _ => by simp [plainN, takes, isOr, takesN, takes_plain b], fun c h => by cases h⟩
  | .rangeN _ b => ⟨fun _ => by simp [plainN, takes, isOr, takesN, takes_plain b], fun c h => by cases h⟩
  | .rangeNM _ _ b => ⟨fun _ => by simp [plainN, takes, isOr, takesN, takes_plain b], fun c h => by cases h⟩
  | .ngRangeN _ b => ⟨fun _ => by simp [plainN, takes, isOr, takesN, takes_plain b], fun c h => by cases h⟩
  | .ngRangeNM _ _ b => ⟨fun _ => by simp [plainN, takes, isOr, takesN, takes_plain b], fun c h => by cases h⟩
  | .msym _ | .symb _ | .enum _ | .nenum _ | .bkTrace _ | .bkTraceN _ | .bkTraceName _ | .bkTraceNName _ | .bkBrack _ | .bkBrackName _ | .ahead _
  | .nahead _ | .behind _ _ | .nbehind _ _ => ⟨fun _ => by simp [plainN, takes, isOr, takesN], fun c h => by cases h⟩
end

theorem inFrag_append (il : Bool) (l k : List Node) : inFrag il (l ++ k) = (inFrag il l && inFrag il k) := by
  induction l with
  | nil => rfl
  | cons a r ih => simp only [List.cons_append, inFrag, ih, Bool.and_assoc]

theorem inFrag_symbs (il : Bool) (w : Text) : inFrag il (w.map .symb) = true := by
  induction w with
  | nil => rfl
  | cons c w ih => simp [inFrag, inFragN, ih]

mutual
theorem inFrag_plain (il : Bool) : ∀ l : List Node, inFrag il (plain l) = inFrag il l
  | [] => rfl
  | n :: r => by rw [plain, inFrag_append, inFrag, inFrag_plain il r, inFrag_plainN il n]
theorem inFrag_plainN (il : Bool) : ∀ n : Node, inFrag il (plainN n) = inFragN il n
  | .empty => by simp [plainN, inFrag, inFragN]
  | .word w => by rw [plainN, inFrag_symbs, inFragN]
  | .brackets i b => by simp [plainN, inFrag, inFragN, inFrag_plain il b, inFrag_plain true b, inFrag_plain false b, minLen_plain, simple_plain]
  | .named i b => by simp [plainN, inFrag, inFragN, inFrag_plain il b, inFrag_plain true b, inFrag_plain false b, minLen_plain, simple_plain]
  | .or b => by simp [plainN, inFrag, inFragN, inFrag_plain il b, inFrag_plain true b, inFrag_plain false b, minLen_plain, simple_plain]
  | .rangeN _ b => by simp [plainN, inFrag, inFragN, inFrag_plain il b, inFrag_plain true b, inFrag_plain false b, minLen_plain, simple_plain]
  | .rangeNM _ _ b => by simp [plainN, inFrag, inFragN, inFrag_plain il b, inFrag_plain true b, inFrag_plain false b, minLen_plain, simple_plain]
  | .ngRangeN _ b => by simp [plainN, inFrag, inFragN, inFrag_plain il b, inFrag_plain true b, inFrag_plain false b, minLen_plain, simple_plain]
  | .ngRangeNM _ _ b => by simp [plainN, inFrag, inFragN, inFrag_plain il b, inFrag_plain true b, inFrag_plain false b, minLen_plain, simple_plain]
  | .ahead b => by simp [plainN, inFrag, inFragN, inFrag_plain il b, inFrag_plain true b, inFrag_plain false b, minLen_plain, simple_plain]
  | .nahead b => by simp [plainN, inFrag, inFragN, inFrag_plain il b, inFrag_plain true b, inFrag_plain false b, minLen_plain, simple_plain]
  | .behind _ b => by simp [plainN, inFrag, inFragN, inFrag_plain il b, inFrag_plain true b, inFrag_plain false b, minLen_plain, simple_plain]
  | .nbehind _ b => by simp [plainN, inFrag, inFragN, inFrag_plain il b, inFrag_plain true b, inFrag_plain false b, minLen_plain, simple_plain]
  | .msym _ | .symb _ | .enum _ | .nenum _ | .bkTrace _ | .bkTraceN _ | .bkTraceName _ | .bkTraceNName _ | .bkBrack _ | .bkBrackName _ => by
    simp [plainN, inFrag, inFragN]
end

theorem repsTake_append (l k : List Node) : repsTake (l ++ k) = (repsTake l && repsTake k) := by
  induction l with
  | nil => rfl
  | cons a r ih => simp only [List.cons_append, repsTake, ih, Bool.and_assoc]

theorem repsTake_symbs (w : Text) : repsTake (w.map .symb) = true := by
  induction w with
  | nil => rfl
  | cons c w ih => simp [repsTake, repsTakeN, ih]

mutual
theorem repsTake_plain : ∀ l : List Node, repsTake (plain l) = repsTake l
  | [] => rfl
  | n :: r => by rw [plain, repsTake_append, repsTake, repsTake_plain r, repsTake_plainN n]
theorem repsTake_plainN : ∀ n : Node, repsTake (plainN n) = repsTakeN n
  | .empty => by simp [plainN, repsTake, repsTakeN]
  | .word w => by rw [plainN, repsTake_symbs, repsTakeN]
  | .brackets i b => by simp [plainN, repsTake, repsTakeN, repsTake_plain b, takes_plain]
  | .named i b => by simp [plainN, repsTake, repsTakeN, repsTake_plain b, takes_plain]
  | .or b => by simp [plainN, repsTake, repsTakeN, repsTake_plain b, takes_plain]
  | .rangeN _ b => by simp [plainN, repsTake, repsTakeN, repsTake_plain b, takes_plain]
  | .rangeNM _ _ b => by simp [plainN, repsTake, repsTakeN, repsTake_plain b, takes_plain]
  | .ngRangeN _ b => by simp [plainN, repsTake, repsTakeN, repsTake_plain b, takes_plain]
  | .ngRangeNM _ _ b => by simp [plainN, repsTake, repsTakeN, repsTake_plain b, takes_plain]
  | .ahead b => by simp [plainN, repsTake, repsTakeN, repsTake_plain b, takes_plain]
  | .nahead b => by simp [plainN, repsTake, repsTakeN, repsTake_plain b, takes_plain]
  | .behind _ b => by simp [plainN, repsTake, repsTakeN, repsTake_plain b, takes_plain]
  | .nbehind _ b => by simp [plainN, repsTake, repsTakeN, repsTake_plain b, takes_plain]
  | .msym _ | .symb _ | .enum _ | .nenum _ | .bkTrace _ | .bkTraceN _ | .bkTraceName _ | .bkTraceNName _ | .bkBrack _ | .bkBrackName _ => by
    simp [plainN, repsTake, repsTakeN]
end

theorem noMark_append (l k : List Node) : noMark (l ++ k) = (noMark l && noMark k) := by
  induction l with
  | nil => rfl
  | cons a r ih => simp only [List.cons_append, noMark, ih, Bool.and_assoc]

theorem noMark_symbs (w : Text) : noMark (w.map .symb) = true := by
  induction w with
  | nil => rfl
  | cons c w ih => simp [noMark, noMarkN, ih]

mutual
theorem noMark_plain : ∀ l : List Node, noMark (plain l) = noMark l
  | [] => rfl
  | n :: r => by rw [plain, noMark_append, noMark, noMark_plain r, noMark_plainN n]
theorem noMark_plainN : ∀ n : Node, noMark (plainN n) = noMarkN n
  | .empty => by simp [plainN, noMark, noMarkN]
  | .word w => by rw [plainN, noMark_symbs]; rfl
  | .brackets i b => by simp [plainN, noMark, noMarkN, noMark_plain b]
  | .named i b => by simp [plainN, noMark, noMarkN, noMark_plain b]
  | .or b => by simp [plainN, noMark, noMarkN, noMark_plain b]
  | .rangeN _ b => by simp [plainN, noMark, noMarkN, noMark_plain b]
  | .rangeNM _ _ b => by simp [plainN, noMark, noMarkN, noMark_plain b]
  | .ngRangeN _ b => by simp [plainN, noMark, noMarkN, noMark_plain b]
  | .ngRangeNM _ _ b => by simp [plainN, noMark, noMarkN, noMark_plain b]
  | .ahead b => by simp [plainN, noMark, noMarkN, noMark_plain b]
  | .nahead b => by simp [plainN, noMark, noMarkN, noMark_plain b]
  | .behind _ b => by simp [plainN, noMark, noMarkN, noMark_plain b]
  | .nbehind _ b => by simp [plainN, noMark, noMarkN, noMark_plain b]
  | .msym _ | .symb _ | .enum _ | .nenum _ | .bkTrace _ | .bkTraceN _ | .bkTraceName _ | .bkTraceNName _ | .bkBrack _ | .bkBrackName _ => by
    simp [plainN, noMark, noMarkN]
end

end Verif.RegExp
