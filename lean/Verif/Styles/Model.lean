/-!
# Model of style definitions and style lookup

Models `RegionMapper` (handlers/RegionMapper.h/.cpp of /repo/src/colorer), `setRegionDefine` and the `<assign>` loop of
`loadRegionMappings` (handlers/StyledHRDMapper.cpp:20-54, 84-101, handlers/TextHRDMapper.cpp:20-41, 69-86),
`StyledRegion::assignParent`/`setValues` (handlers/StyledRegion.cpp:47-75) and `TextRegion::assignParent`
(handlers/TextRegion.cpp:55-69).

A `RegionDefine` object is a heap cell named by a number; `none` in the heap = freed. Region names are numbers. Exceptions
(`vector::at` out of range) and use of a freed object are explicit. Not modelled: XML reading and number parsing; a
`<assign>` element arrives as (name, value).
-/
namespace Verif.Styles

/-- what the mapper sees of a `Region` (Region.h): its name and its parent's number -/
structure Reg where
  name   : Nat
  parent : Option Nat
deriving DecidableEq, Repr

/-- `regionDefines` (name → object), the heap of `RegionDefine` objects, `regionDefinesCache`
(RegionMapper.h:71-74). -/
structure Mapper (V : Type) where
  defs  : Nat → Option Nat
  heap  : Nat → Option V
  next  : Nat
  cache : List (Option Nat)

/-- a new mapper -/
def Mapper.empty (V : Type) : Mapper V := ⟨fun _ => none, fun _ => none, 0, []⟩

/-- `vector::resize` -/
def resize (n : Nat) (l : List (Option Nat)) : List (Option Nat) :=
  l.take n ++ List.replicate (n - l.length) none

/-- `vector::at(i) = v`: `none` = `std::out_of_range` -/
def setAt (l : List (Option Nat)) (i : Nat) (v : Option Nat) : Option (List (Option Nat)) :=
  if i < l.length then some (l.set i v) else none

variable {V : Type}

/-- `getRegionDefine(const Region*)` for a non-null region (RegionMapper.cpp:12-43): the pointer found (null = `none`) and
the new cache. The outer `none` is an exception. `fuel` bounds the recursion to the parents. -/
def lookup (R : Nat → Reg) (defs : Nat → Option Nat) : Nat → List (Option Nat) → Nat → Option (Option Nat × List (Option Nat))
  | 0, _, _ => none
  | fuel + 1, cache, id =>
    match (if id < cache.length then cache[id]?.join else none) with            -- 18-26
    | some d => some (some d, cache)
    | none =>
      let cache1 := if cache.length < id + 1 then resize (id * 2) cache else cache      -- 28-30
      match defs (R id).name with                                               -- 32-36
      | some d => (setAt cache1 id (some d)).map fun c => (some d, c)
      | none =>
        match (R id).parent with                                                -- 38-41
        | none => some (none, cache1)
        | some p =>
          match lookup R defs fuel cache1 p with
          | none => none
          | some (r, cache2) => (setAt cache2 id r).map fun c => (r, c)

/-- The operations on a mapper. -/
inductive Op (V : Type) where
  /-- `setRegionDefine(name, rd)` with non-null `rd` (StyledHRDMapper.cpp:84-101) -/
  | set (name : Nat) (v : V)
  /-- one `<assign>` element of `loadRegionMappings` (StyledHRDMapper.cpp:21-52) -/
  | assign (name : Nat) (v : V)
  /-- `getRegionDefine(region)` -/
  | get (id : Nat)

/-- a new object stored under a name; the old object of that name is destroyed -/
def Mapper.define (m : Mapper V) (name : Nat) (v : V) : Mapper V :=
  { m with
    defs := fun n => if n = name then some m.next else m.defs n
    heap := fun p => if p = m.next then some v else if m.defs name = some p then none else m.heap p
    next := m.next + 1 }

/-- One operation; `none` = exception. The second component is what a lookup returned. -/
def step (R : Nat → Reg) (m : Mapper V) : Op V → Option (Mapper V × Option Nat)
  | .set n v => some (m.define n v, none)
  | .assign n v => some (m.define n v, none)
  | .get id => (lookup R m.defs (id + 1) m.cache id).map fun (r, c) => ({ m with cache := c }, r)

/-- a sequence of operations -/
def run (R : Nat → Reg) (m : Mapper V) : List (Op V) → Option (Mapper V)
  | [] => some m
  | o :: r => (step R m o).bind fun (m, _) => run R m r

/-- `getRegionDefine(name)` (RegionMapper.cpp:45-52), dereferenced -/
def Mapper.byName (m : Mapper V) (name : Nat) : Option V := (m.defs name).bind m.heap

/-! ## Style values -/

/-- `StyledRegion` (handlers/StyledRegion.h): colours with their "set" flags, and the style bits -/
structure Styled where
  isForeSet : Bool
  isBackSet : Bool
  fore  : BitVec 32
  back  : BitVec 32
  style : BitVec 32
deriving DecidableEq, Repr

/-- `StyledRegion::assignParent` (StyledRegion.cpp:47-62) -/
def Styled.assignParent (r p : Styled) : Styled :=
  { isForeSet := if r.isForeSet then r.isForeSet else p.isForeSet
    isBackSet := if r.isBackSet then r.isBackSet else p.isBackSet
    fore := if r.isForeSet then r.fore else p.fore
    back := if r.isBackSet then r.back else p.back
    style := r.style ||| p.style }

/-- `TextRegion` (handlers/TextRegion.h): the four markup strings, null when empty (TextRegion.cpp:4-21) -/
structure Text where
  startText : Option (List Nat)
  endText   : Option (List Nat)
  startBack : Option (List Nat)
  endBack   : Option (List Nat)
deriving DecidableEq, Repr

/-- `TextRegion::assignParent` (TextRegion.cpp:55-69) -/
def Text.assignParent (r p : Text) : Text :=
  let t := r.startText = none ∨ r.endText = none
  let b := r.startBack = none ∨ r.endBack = none
  { startText := if t then p.startText else r.startText
    endText   := if t then p.endText else r.endText
    startBack := if b then p.startBack else r.startBack
    endBack   := if b then p.endBack else r.endBack }

end Verif.Styles
