/-!
# Model of file types: parameters, detection, registration, colour scheme catalogue

Models, from /repo/src/colorer/parsers: FileTypeImpl.cpp (parameters 50-165, getPriority 172-184), FileTypeChooser.cpp
(calcPriority 29-36), HrcLibraryImpl.cpp (unloadFileType 52-73, chooseFileType 106-127, getFileType 129-139,
enumerateFileTypes 141-147, addPrototype 228-259), ParserFactoryImpl.cpp (enumHrdInstances 98-107, getHrdNode 109-121, addHrd
194-200), and editor/BaseEditor.cpp `chooseFileTypeCh` (130-159).

Names and values are numbers (strings up to equality). Unordered maps are association lists searched from the front;
`emplace` does nothing if the key exists. Scores are integers in an arbitrary unit with exact arithmetic (the code uses
`double` and the tolerance 1e-6).
-/
namespace Verif.FileTypes

/-! ## Parameters -/

/-- `TypeParameter` (FileTypeImpl.h:13-26) -/
structure Param where
  value : Nat
  user  : Option Nat
  descr : Option Nat
deriving DecidableEq, Repr

abbrev Params := List (Nat × Param)

/-- `paramsHash.find` -/
def find (P : Params) (n : Nat) : Option Param := (P.find? (·.1 = n)).map (·.2)

/-- overwrite the fields of the entry `find` returns -/
def update (P : Params) (n : Nat) (f : Param → Param) : Params := match P with
  | [] => []
  | (m, p) :: r => if m = n then (m, f p) :: r else (m, p) :: update r n f

/-- `addParam` (115-119): emplace -/
def addParam (P : Params) (n v : Nat) : Params := if (find P n).isSome then P else P ++ [(n, ⟨v, none, none⟩)]

/-- the setters and `addParam` -/
inductive POp where
  | add (n v : Nat)
  | setUser (n : Nat) (v : Option Nat)          -- setParamValue / setParamUserValue 121-135, 152-155
  | setDefault (n : Nat) (v : Option Nat)       -- 137-150
  | setDescr (n : Nat) (v : Option Nat)         -- 157-170
deriving DecidableEq, Repr

/-- one call: the new parameters, or `none` when the call throws (and changes nothing) -/
def pstep (P : Params) : POp → Option Params
  | .add n v => some (addParam P n v)
  | .setUser n v => if (find P n).isSome then some (update P n fun p => { p with user := v }) else none
  | .setDefault n v => match v with
    | none => none
    | some v => if (find P n).isSome then some (update P n fun p => { p with value := v }) else none
  | .setDescr n v => if (find P n).isSome then some (update P n fun p => { p with descr := v }) else none

/-- a history of calls; a throwing call leaves the parameters as they are -/
def prun (P : Params) : List POp → Params
  | [] => P
  | o :: r => prun ((pstep P o).getD P) r

/-- `getParamValue` (69-79) -/
def getValue (P : Params) (n : Nat) : Option Nat := match find P n with
  | some p => match p.user with
    | some u => some u
    | none => some p.value
  | none => none
/-- `getParamDefaultValue` (97-104) -/
def getDefault (P : Params) (n : Nat) : Option Nat := (find P n).map (·.value)
/-- `getParamUserValue` (106-113) -/
def getUser (P : Params) (n : Nat) : Option Nat := (find P n).bind (·.user)
/-- `getParamDescription` (60-67) -/
def getDescr (P : Params) (n : Nat) : Option Nat := (find P n).bind (·.descr)
/-- `enumParams` (50-58; the order of the unordered map is unspecified, here insertion order) -/
def enumParams (P : Params) : List Nat := P.map (·.1)

/-! ## Detection -/

/-- `FileTypeChooser`: the regular expression is an arbitrary predicate -/
structure Chooser where
  isFileName : Bool
  prio       : Int
  re         : Nat → Bool

/-- `calcPriority` (FileTypeChooser.cpp:29-36); the argument may be null -/
def Chooser.calc (c : Chooser) (s : Option Nat) : Int := match s with
  | none => 0
  | some s => if c.re s then c.prio else 0

/-- `getPriority` (172-184) -/
def getPriority (cs : List Chooser) (fileName content : Option Nat) : Int :=
  cs.foldl (fun acc c => if c.isFileName then acc + c.calc fileName else acc + c.calc content) 0

/-- state of the loop of `chooseFileType` -/
structure Pick where
  best : Option Nat
  max  : Int
  no   : Nat
deriving DecidableEq, Repr

/-- lines 115-118: skip to a further candidate -/
def pickNext (delta : Int) (s : Pick) (i : Nat) (p : Int) : Pick :=
  if 0 < s.no ∧ p - s.max < delta then { s with best := some i, no := s.no - 1 } else s

/-- lines 119-122: a better type -/
def pickBest (delta : Int) (s : Pick) (i : Nat) (p : Int) : Pick :=
  if p - s.max > delta ∨ s.best = none then { s with best := some i, max := p } else s

/-- one type (HrcLibraryImpl.cpp:112-123); `i` is its index, `p` its priority, `delta` the tolerance -/
def pickStep (delta : Int) (s : Pick) (i : Nat) (p : Int) : Pick :=
  pickBest delta (pickNext delta s i p) i p

def pickLoop (delta : Int) : Pick → Nat → List Int → Pick
  | s, _, [] => s
  | s, i, p :: r => pickLoop delta (pickStep delta s i p) (i + 1) r

/-- `chooseFileType` (106-127) on the priorities of the types in order: index of the result -/
def choose (delta : Int) (ps : List Int) (typeNo : Nat) : Option Nat :=
  let s := pickLoop delta ⟨none, 0, typeNo⟩ 0 ps
  if 0 < s.no then none else s.best

/-- the text `chooseFileTypeCh` hands to detection (BaseEditor.cpp:132-149): lines are the characters of the source, `total`
the running `totalLength`, `k` lines still allowed -/
def gather (chooseLen : Int) : Nat → Int → List (List Nat) → List Nat
  | 0, _, _ => []
  | _, _, [] => []                                                             -- getLine returned null
  | k + 1, total, l :: r =>
    let len := if chooseLen - total > l.length then (l.length : Int) else chooseLen - total
    l.take len.toNat ++ [10] ++ (if total + len ≥ chooseLen then [] else gather chooseLen k (total + len) r)

/-- `chooseFileTypeCh` (130-159). `detect` is `chooseFileType` on the gathered text, `ask t` the parameters `firstlines`
and `firstlinebytes` of the chosen type (with the current ones as defaults). The recursion is a fuel; `none`: not ended. -/
def chooseCh (detect : List Nat → Nat) (ask : Nat → Nat × Int → Nat × Int) (lines : List (List Nat)) :
    Nat → Nat × Int → Option Nat
  | 0, _ => none
  | fuel + 1, q =>
    let t := detect (gather q.2 q.1 0 lines)
    if ask t q ≠ q then chooseCh detect ask lines fuel (ask t q) else some t

/-! ## Registration -/

/-- a `FileType` object; `uid` is its identity -/
structure FT where
  uid       : Nat
  name      : Nat
  isPackage : Bool
deriving DecidableEq, Repr

/-- `fileTypeHash` and `fileTypeVector`, and the owners of the entries of `schemeHash` -/
structure Reg where
  hash    : List FT
  vec     : List FT
  schemes : List (Nat × Nat)     -- scheme name, uid of its type
  next    : Nat                  -- allocation counter
deriving DecidableEq, Repr

def Reg.empty : Reg := ⟨[], [], [], 0⟩

/-- `fileTypeHash.find` / `getFileType` (129-139) -/
def Reg.get (R : Reg) (name : Nat) : Option FT := R.hash.find? (·.name = name)

/-- the erase loop of `unloadFileType` (54-65): as long as some scheme of the type exists, erase the first -/
def eraseSchemes (uid : Nat) : Nat → List (Nat × Nat) → List (Nat × Nat)
  | 0, l => l
  | fuel + 1, l => match l.findIdx? (·.2 = uid) with
    | none => l
    | some i => eraseSchemes uid fuel (l.eraseIdx i)

/-- `unloadFileType` (52-73) -/
def Reg.unload (R : Reg) (ft : FT) : Reg :=
  { R with
    schemes := eraseSchemes ft.uid R.schemes.length R.schemes
    vec := R.vec.eraseP (·.uid = ft.uid)
    hash := R.hash.eraseP (·.name = ft.name) }

/-- lines 237-241: an older type of the same name is unloaded first -/
def Reg.forget (R : Reg) (name : Nat) : Reg := match R.get name with
  | some old => R.unload old
  | none => R

/-- `addPrototype` (228-259) for a non-empty name; an empty one is skipped by the caller -/
def Reg.addPrototype (R : Reg) (name : Nat) (isPackage : Bool) : Reg :=
  let R := R.forget name
  let ft : FT := ⟨R.next, name, isPackage⟩
  { R with hash := R.hash ++ [ft], vec := if isPackage then R.vec else R.vec ++ [ft], next := R.next + 1 }

/-- a scheme is registered for the type with this name, if there is one (`addScheme`, 471-489) -/
def Reg.addScheme (R : Reg) (scheme type : Nat) : Reg := match R.get type with
  | none => R
  | some ft => if R.schemes.any (·.1 = scheme) then R else { R with schemes := R.schemes ++ [(scheme, ft.uid)] }

inductive ROp where
  | proto (name : Nat) (isPackage : Bool)
  | scheme (name type : Nat)
deriving DecidableEq, Repr

def Reg.step (R : Reg) : ROp → Reg
  | .proto n p => R.addPrototype n p
  | .scheme s t => R.addScheme s t

def Reg.run (R : Reg) : List ROp → Reg
  | [] => R
  | o :: r => Reg.run (R.step o) r

/-! ## Colour scheme catalogue (ParserFactoryImpl) -/

/-- `HrdNode`: class, name, payload -/
structure Hrd where
  cls  : Nat
  name : Nat
  data : Nat
deriving DecidableEq, Repr

abbrev Catalog := List (Nat × List Hrd)

/-- `addHrd` (194-200) -/
def addHrd (C : Catalog) (h : Hrd) : Catalog := match C with
  | [] => [(h.cls, [h])]
  | (c, l) :: r => if c = h.cls then (c, l ++ [h]) :: r else (c, l) :: addHrd r h

/-- `getHrdNode` (109-121): the node, or `none` when it throws -/
def getHrdNode (C : Catalog) (cls name : Nat) : Option Hrd := match C.find? (·.1 = cls) with
  | none => none
  | some (_, l) => l.find? (·.name = name)

/-- `enumHrdInstances` (98-107): `none` is the dereference of the end iterator for an unknown class -/
def enumHrdInstances (C : Catalog) (cls : Nat) : Option (List Hrd) := (C.find? (·.1 = cls)).map (·.2)

/-- `enumHrdClasses` (87-96) -/
def enumHrdClasses (C : Catalog) : List Nat := C.map (·.1)

end Verif.FileTypes
