import Verif.CharClass.Legacy
/-!
# What a class means with the built-in strings (specification for C79)

The written classes are those of C57 (`CR`, Verif.RegExp.Syntax); the categories of the characters are in tables.
-/
namespace Verif.CharClass
open Verif.RegExp

/-- character `d` is of category `cat`, by the tables -/
def Tables.has (T : Tables) (cat d : Nat) : Bool :=
  match T.page cat (d / 256) with
  | none => false
  | some w => (w (d % 256 / 32)).getLsbD (d % 256 % 32)

/-- "ALL", "ASSIGNED", "UNASSIGNED" -/
def nAll : Text := [65, 76, 76]
def nAssigned : Text := [65, 83, 83, 73, 71, 78, 69, 68]
def nUnassigned : Text := [85, 78, 65, 83, 83, 73, 71, 78, 69, 68]

/-- the two letter names of Unicode, in the order of the tables -/
def names : List Text :=
  ["Cn", "Cc", "Cf", "Cs", "Ll", "Lm", "Lo", "Lt", "Lu", "Mc", "Me", "Mn", "Nd", "Nl", "No", "Pc", "Pd", "Pe", "Pf", "Pi", "Po", "Ps", "Sc", "Sk", "Sm",
   "So", "Zl", "Zp", "Zs"].map fun s => s.toList.map Char.toNat

/-- the characters with the properties the tables give them. `{name}`: the categories whose name begins so. -/
def ctxOf (x : Ctx) (T : Tables) : Ctx :=
  { x with
    setNd := T.has 12
    setL := fun d => T.has 4 d || T.has 5 d || T.has 6 d || T.has 7 d || T.has 8 d
    setZ := fun d => T.has 26 d || T.has 27 d || T.has 28 d
    setLl := T.has 4
    setLu := T.has 8
    categ := fun n d =>
      if n = nAll then true
      else if n = nAssigned then (List.range 29).any fun i => decide (1 ≤ i) && T.has i d
      else (List.range 29).any fun i => decide (1 ≤ i) && n.isPrefixOf (names.getD i []) && T.has i d }

/-- with the flag `i`: the characters of `S` and their other cases -/
def folded (x : Ctx) (ic : Bool) (S : Nat → Prop) (d : Nat) : Prop :=
  S d ∨ ic = true ∧ ∃ c, S c ∧ (d = x.lower c ∨ d = x.upper c ∨ d = x.title c)

/-- the characters of a class with or without the flag `i`; `P`: those of what stands before -/
def setI (x : Ctx) (ic : Bool) : (Nat → Prop) → CR → Nat → Prop
  | P, .nil => P
  | P, .ch w r => setI x ic (fun d => P d ∨ folded x ic (fun c => c = w.val) d) r
  | P, .range a b r => setI x ic (fun d => P d ∨ folded x ic (fun c => a.val ≤ c ∧ c ≤ b.val) d) r
  | P, .letter c r => setI x ic (fun d => P d ∨ letterSet x c d ∨ ic = true ∧ (c = 108 ∧ x.setLu d = true ∨ c = 117 ∧ x.setLl d = true)) r
  | P, .categ n r => setI x ic (fun d => P d ∨ x.categ n d = true) r
  | P, .dash r => setI x ic (fun d => P d ∨ d = 45) r
  | P, .union neg k r => setI x ic (fun d => P d ∨ negIf neg (setI x ic (fun _ => False) k) d) r
  | P, .minus neg k r => setI x ic (fun d => P d ∧ ¬ negIf neg (setI x ic (fun _ => False) k) d) r
  | P, .inter neg k r => setI x ic (fun d => P d ∧ negIf neg (setI x ic (fun _ => False) k) d) r

/-- without the flag it is the set of C57 -/
theorem setI_false (x : Ctx) (k : CR) : ∀ P, setI x false P k = k.set x P := by
  induction k with
  | nil => intro P; rfl
  | ch w r ih | range a b r ih | letter c r ih | categ n r ih | dash r ih => intro P; simp [setI, CR.set, folded, ih]
  | union neg k r ihk ih | minus neg k r ihk ih | inter neg k r ihk ih => intro P; simp [setI, CR.set, ihk, ih]

/-- at most eight digits -/
def Short : Ch → Prop
  | .hexN ds => ds.length ≤ 8
  | .plain _ | .esc _ | .hex2 _ _ => True

/-- written correctly (`u`: the text behind), as in C57 but with `\W` and `\S`, and within what the code can do: numbers of eight digits; ranges as in C17
and only without the flag `i`, as `-[…]` and `&&[…]`; not the categories `{UNASSIGNED}`, `{C}`, `{Cn}` -/
def OkL (x : Ctx) (ic : Bool) : CR → Text → Prop
  | .nil, _ => True
  | .ch w r, u => w.Ok clsSpecial ∧ Short w ∧ NoRange (r.text ++ u) ∧ (w.text = [38] → ∀ v, r.text ++ u ≠ 38 :: 91 :: v) ∧ OkL x ic r u
  | .range a b r, u => ic = false ∧ a.Ok clsSpecial ∧ Short a ∧ b.Ok clsSpecial ∧ Short b ∧ a.val ≤ b.val ∧ AddOk a.val b.val ∧
      NoRange (r.text ++ u) ∧ OkL x ic r u
  | .letter c r, u => c ∈ [100, 68, 119, 87, 115, 83, 108, 117] ∧ OkL x ic r u
  | .categ n r, u => n ∉ [[], nUnassigned, [67], [67, 110]] ∧ NameOk x n ∧ OkL x ic r u
  | .dash r, u => (r.text ++ u).head? ≠ some 91 ∧ NoRange (r.text ++ u) ∧ OkL x ic r u
  | .union neg k r, u => (neg = false → k.text.head? ≠ some 94) ∧ OkL x ic k (93 :: (r.text ++ u)) ∧ OkL x ic r u
  | .minus neg k r, u => ic = false ∧ (neg = false → k.text.head? ≠ some 94) ∧ OkL x ic k (93 :: (r.text ++ u)) ∧ OkL x ic r u
  | .inter neg k r, u => ic = false ∧ (neg = false → k.text.head? ≠ some 94) ∧ OkL x ic k (93 :: (r.text ++ u)) ∧ OkL x ic r u

/-- `&&[…]` is not used -/
def NoInter : CR → Prop
  | .nil => True
  | .ch _ r | .range _ _ r | .letter _ r | .categ _ r | .dash r => NoInter r
  | .union _ k r | .minus _ k r => NoInter k ∧ NoInter r
  | .inter _ _ _ => False

/-- the case functions stay within 16 bits and leave '-' alone -/
structure CasesOk (x : Ctx) : Prop where
  lower : ∀ c, c < 65536 → x.lower c < 65536
  upper : ∀ c, c < 65536 → x.upper c < 65536
  title : ∀ c, c < 65536 → x.title c < 65536
  dash : x.lower 45 = 45 ∧ x.upper 45 = 45 ∧ x.title 45 = 45

end Verif.CharClass
