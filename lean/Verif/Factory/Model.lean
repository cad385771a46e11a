import Verif.Hrc.Model
import Verif.Styles.Model
/-!
# Model of the start-up: catalogue, prototypes, colour schemes

Models, from /repo/src/colorer: xml/libxml2/LibXmlReader.cpp (`populateNode` 54-70, `getElementText` 72-88, `getChildren` 90-106, `getAttributes`
108-116), parsers/CatalogParser.cpp (all), parsers/ParserFactoryImpl.cpp (all but `enumHrdClasses`, `enumHrdInstances`, which are in
Verif.FileTypes), parsers/HrcLibraryImpl.cpp (`loadSource` 35-50, `unloadFileType` 52-73, `parseHRC` 176-209, `parseHrcBlock` 211-228, `addPrototype`
230-260, `parsePrototypeBlock` 262-284, `addPrototypeLocation` 286-294, `addPrototypeDetectParam` 296-334, `addPrototypeParameters` 336-356,
`parseTypeBlock` 397-416 with the attributes read in 418-489), parsers/FileTypeImpl.cpp (`addParam`), handlers/StyledHRDMapper.cpp
(`loadRegionMappings` 6-56), handlers/TextHRDMapper.cpp (`loadRegionMappings` 6-43), strings/icu/UStr.cpp (`HexToUInt` 219-236), xml/XmlInputSource.cpp
(`isFsURI` 25-31).

What the file system, libxml2 and `std::stod` answer is the parameter `Outside`. A step gives the new state and, if it ended with an exception, which
kind: state changes made before an exception stay. Types in the sources are handed to the model of Verif.Hrc. Not modelled: logging, the objects leaked
when an exception leaves `addPrototype`, prototypes inside the sources of types.
-/
namespace Verif.Factory
open Verif.Hrc (Name lit Elem Lib World TypeDecl Item)
open Verif.RegExp (Ctx Expr)
open Verif.Keywords (KW)

/-- how a call ends otherwise than by returning: an exception of the library (class `Exception`), another C++ exception (`std::filesystem_error`),
undefined behaviour -/
inductive Err where
  | lib | std | ub
deriving DecidableEq, Repr

/-! ## XML -/

/-- a node of the document of libxml2: an element, text, a CDATA section, anything else (comments, processing instructions) -/
inductive Dom where
  | elem (name : Name) (attrs : List (Name × Name)) (kids : List Dom)
  | text (s : Name)
  | cdata (s : Name)
  | other

/-- `trim()` with the whitespace of ICU -/
def trim (space : Nat → Bool) (s : Name) : Name := ((s.dropWhile space).reverse.dropWhile space).reverse

/-- `getElementText` (72-88) -/
def elementText (space : Nat → Bool) : List Dom → Name
  | [] => []
  | .cdata s :: _ => s
  | .text s :: r => if trim space s = [] then elementText space r else trim space s
  | .elem _ _ _ :: r => elementText space r
  | .other :: r => elementText space r

mutual
/-- `populateNode` (54-70): only elements give a node -/
def toElem (space : Nat → Bool) : Dom → Option Elem
  | .elem n as ks => some (.mk n as (elementText space ks) (toElems space ks))
  | .text _ => none
  | .cdata _ => none
  | .other => none
/-- `getChildren` (90-106) -/
def toElems (space : Nat → Bool) : List Dom → List Elem
  | [] => []
  | d :: r => match toElem space d with
    | some e => e :: toElems space r
    | none => toElems space r
end

/-! ## Outside -/

/-- What the code asks its surroundings. `read path`: the root node, or `none` if libxml2 cannot read the document. `locate base path`: the constructor of
`XmlInputSource` – the full path of a file that exists, or an exception. `files base path`: `getFilesFromPath` – the files of a directory with the
extension, or the path itself. `normal`: `normalizePath`. `weight`: `std::stod`, in an arbitrary unit (`none`: exception). The rest is for `World`. -/
structure Outside where
  read   : Name → Option Dom
  space  : Nat → Bool
  locate : Option Name → Name → Except Err Name
  files  : Name → Name → Except Err (List Name)
  normal : Name → Except Err Name
  env    : Name → Option Name
  weight : Name → Option Int
  unit   : Int
  ctx    : Ctx
  order  : List Name → List Name
  qsort  : Bool → List KW → List KW
  order_perm : ∀ l, (order l).Perm l
  qsort_perm : ∀ b l, (qsort b l).Perm l
  fuel   : Nat

/-- `XmlReader::parse`, `getNodes`: the first node -/
def Outside.root (O : Outside) (path : Name) : Option Elem := (O.read path).bind (toElem O.space)

/-! ## The catalogue -/

/-- `HrdNode` (parsers/HrdNode.h) -/
structure HrdNode where
  cls   : Name
  name  : Name
  descr : Name
  locs  : List Name
deriving DecidableEq, Repr

/-- the fields of `CatalogParser` -/
structure Cat where
  hrcs : List Name
  hrds : List HrdNode
deriving DecidableEq, Repr

/-- the loops over `<location>` (addHrcSetsLocation 47-62, parseHRDSetsChild 93-105) -/
def addLocations : List Elem → List Name → List Name
  | [], acc => acc
  | k :: r, acc =>
    if k.tag = lit "location" then
      if k.attr (lit "link") = [] then addLocations r acc else addLocations r (acc ++ [k.attr (lit "link")])
    else addLocations r acc

/-- `parseHRDSetsChild` (76-112) -/
def parseHrd (el : Elem) : Option HrdNode :=
  if el.attr (lit "class") = [] ∨ el.attr (lit "name") = [] then none
  else if addLocations el.kids [] = [] then none
  else some ⟨el.attr (lit "class"), el.attr (lit "name"), el.attr (lit "description"), addLocations el.kids []⟩

/-- `parseHrdSetsBlock` (64-74) -/
def addHrdSets : List Elem → List HrdNode → List HrdNode
  | [], acc => acc
  | k :: r, acc =>
    if k.tag = lit "hrd" then
      match parseHrd k with
      | some h => addHrdSets r (acc ++ [h])
      | none => addHrdSets r acc
    else addHrdSets r acc

/-- `parseCatalogBlock` (30-40) -/
def addCatalog : List Elem → Cat → Cat
  | [], c => c
  | k :: r, c =>
    if k.tag = lit "hrc-sets" then addCatalog r { c with hrcs := addLocations k.kids c.hrcs }
    else if k.tag = lit "hrd-sets" then addCatalog r { c with hrds := addHrdSets k.kids c.hrds }
    else addCatalog r c

/-- `CatalogParser::parse` (6-28) -/
def parseCat (O : Outside) (path : Name) : Except Err Cat :=
  match O.locate none path with
  | .error e => .error e
  | .ok p => match O.root p with
    | none => .error .lib
    | some r => if r.tag = lit "catalog" then .ok (addCatalog r.kids ⟨[], []⟩) else .error .lib

/-! ## Prototypes -/

/-- `FileTypeChooser`: `<filename>` or `<firstline>`, weight, expression -/
structure Chooser where
  isFileName : Bool
  prio : Int
  re   : Expr

/-- `TypeParameter` without a user value -/
structure Param where
  name  : Name
  value : Name
  descr : Option Name
deriving DecidableEq, Repr

/-- `FileType::Impl` as far as the prototype fills it; `source` is the path of `inputSource` -/
structure Proto where
  name  : Name
  group : Name
  descr : Name
  isPackage : Bool
  source : Option Name
  choosers : List Chooser
  params : List Param

/-- `addParam`, then the description (345-350): `emplace` keeps an older parameter, whose description is replaced -/
def addParam (ps : List Param) (n v d : Name) : List Param :=
  if ps.any (·.name = n) then
    (if d = [] then ps else ps.map fun p => if p.name = n then { p with descr := some d } else p)
  else ps ++ [⟨n, v, if d = [] then none else some d⟩]

/-- `addPrototypeParameters` (336-356) -/
def addParams : List Elem → List Param → List Param
  | [], ps => ps
  | k :: r, ps =>
    if k.tag = lit "param" then
      if k.attr (lit "name") = [] ∨ k.attr (lit "value") = [] then addParams r ps
      else addParams r (addParam ps (k.attr (lit "name")) (k.attr (lit "value")) (k.attr (lit "description")))
    else addParams r ps

/-- the weight (310-332): 2 for names, 1 for first lines; the attribute if it is a number and not negative -/
def prioOf (O : Outside) (isName : Bool) (w : Name) : Int :=
  if w = [] then (if isName then 2 * O.unit else O.unit)
  else match O.weight w with
    | none => if isName then 2 * O.unit else O.unit
    | some d => if d < 0 then (if isName then 2 * O.unit else O.unit) else d

/-- `addPrototypeDetectParam` (296-334) -/
def chooserOf (O : Outside) (el : Elem) : Option Chooser :=
  if el.text = [] then none
  else match Hrc.compile O.ctx el.text with
    | none => none
    | some re => some ⟨el.tag = lit "filename", prioOf O (el.tag = lit "filename") (el.attr (lit "weight")), re⟩

/-- one child of a prototype (262-294) in the source `file` -/
def protoChild (O : Outside) (file : Name) (P : Proto) (k : Elem) : Except Err Proto :=
  if k.tag = lit "location" then
    if k.attr (lit "link") = [] then .ok P
    else match O.locate (some file) (k.attr (lit "link")) with
      | .ok p => .ok { P with source := some p }
      | .error e => .error e
  else if !P.isPackage && (k.tag = lit "filename" || k.tag = lit "firstline") then
    match chooserOf O k with
    | some c => .ok { P with choosers := P.choosers ++ [c] }
    | none => .ok P
  else if !P.isPackage && k.tag = lit "parameters" then .ok { P with params := addParams k.kids P.params }
  else .ok P

/-- `parsePrototypeBlock` (262-284) -/
def protoBlock (O : Outside) (file : Name) : List Elem → Proto → Except Err Proto
  | [], P => .ok P
  | k :: r, P => match protoChild O file P k with
    | .error e => .error e
    | .ok P1 => protoBlock O file r P1

/-! ## The factory -/

/-- `ParserFactory::Impl` and the library it owns: the path of the catalogue, `hrc_locations`, `hrd_nodes` (as an association list), `fileTypeHash` (in the
order of registration), `fileTypeVector` (names), and the rest of the library (Verif.Hrc) -/
structure Fac where
  base   : Option Name
  hrcs   : List Name
  hrds   : List (Name × List HrdNode)
  types  : List Proto
  listed : List Name
  lib    : Lib

/-- a new factory -/
def Fac.new : Fac := ⟨none, [], [], [], [], Lib.init []⟩

/-- a state and how the call ended -/
abbrev Res := Fac × Option Err

/-- `catch (Exception&)` that only logs -/
def swallow (r : Res) : Res := match r with
  | (F, some .lib) => (F, none)
  | (F, some .std) => (F, some .std)
  | (F, some .ub) => (F, some .ub)
  | (F, none) => (F, none)

/-- steps in a row, until one ends with an exception -/
def steps {α : Type} (f : α → Fac → Res) : List α → Fac → Res
  | [], F => (F, none)
  | a :: r, F => match f a F with
    | (F1, some e) => (F1, some e)
    | (F1, none) => steps f r F1

/-- `addHrd` (194-200) -/
def addHrd : List (Name × List HrdNode) → HrdNode → List (Name × List HrdNode)
  | [], h => [(h.cls, [h])]
  | (c, l) :: r, h => if c = h.cls then (c, l ++ [h]) :: r else (c, l) :: addHrd r h

/-- the library's own view of the types: flags, imports and schemes of a type go with it (`unloadFileType` 52-73); its regions and entities stay -/
def forgetLib (L : Lib) (t : Name) : Lib :=
  { L with
    protos := L.protos.filter (· ≠ t), started := L.started.filter (· ≠ t), busy := L.busy.filter (· ≠ t), broken := L.broken.filter (· ≠ t),
    done := L.done.filter (· ≠ t), imports := fun x => if x = t then [] else L.imports x, schemes := L.schemes.filter (·.type ≠ t) }

/-- `unloadFileType` (52-73) -/
def Fac.unload (F : Fac) (t : Name) : Fac :=
  { F with types := F.types.filter (·.name ≠ t), listed := F.listed.erase t, lib := forgetLib F.lib t }

/-- an older type of the name is unloaded first (239-243) -/
def Fac.forget (F : Fac) (t : Name) : Fac := if F.types.any (·.name = t) then F.unload t else F

/-- 257-259 -/
def Fac.register (F : Fac) (P : Proto) : Fac :=
  { F with types := F.types ++ [P], listed := if P.isPackage then F.listed else F.listed ++ [P.name],
           lib := { F.lib with protos := F.lib.protos ++ [P.name] } }

/-- the new `FileType` (245-253): group and description default to the name -/
def protoInit (el : Elem) : Proto :=
  ⟨el.attr (lit "name"), if el.attr (lit "group") = [] then el.attr (lit "name") else el.attr (lit "group"),
    if el.attr (lit "description") = [] then el.attr (lit "name") else el.attr (lit "description"), el.tag = lit "package", none, [], []⟩

/-- `addPrototype` (230-260) -/
def addPrototype (O : Outside) (file : Name) (el : Elem) (F : Fac) : Res :=
  if el.attr (lit "name") = [] then (F, none)
  else match protoBlock O file el.kids (protoInit el) with
    | .error e => (F.forget (el.attr (lit "name")), some e)
    | .ok P => ((F.forget (el.attr (lit "name"))).register P, none)

/-! ### Types -/

/-- a child of `<type>` (397-489) -/
def itemOf (k : Elem) : Option Item :=
  if k.tag = lit "region" then some (.region (k.attr (lit "name")) (k.attr? (lit "parent")))
  else if k.tag = lit "entity" then
    match k.attr? (lit "value") with
    | none => none
    | some v => some (.entity (k.attr (lit "name")) v)
  else if k.tag = lit "import" then some (.import_ (k.attr (lit "type")))
  else if k.tag = lit "scheme" then some (.scheme k)
  else none

/-- a `<type>` element -/
def declOf (el : Elem) : TypeDecl := ⟨el.attr (lit "name"), el.kids.filterMap itemOf⟩

/-- the types of a source -/
def declsOf (root : Elem) : List TypeDecl := (root.kids.filter (·.tag = lit "type")).map declOf

/-- the type registered under a name (`fileTypeHash.find`) -/
def findType (ps : List Proto) (t : Name) : Option Proto := ps.find? (·.name = t)

/-- what reading the source of a type gives (`loadFileType` 75-104, `parseHRC` 176-191): nothing if it has no location, or the file cannot be read, or it
is not an HRC file -/
def sourceOf (O : Outside) (ps : List Proto) (t : Name) : Option (List TypeDecl) :=
  match (findType ps t).bind (·.source) with
  | none => none
  | some path => match O.root path with
    | none => none
    | some r => if r.tag = lit "hrc" then some (declsOf r) else none

/-- the value of a parameter of a type (`getParamValue`) -/
def paramOf (ps : List Proto) (t n : Name) : Option Name :=
  ((findType ps t).bind fun p => p.params.find? (·.name = n)).map (·.value)

/-- the world in which the types of these prototypes are loaded -/
def worldOf (O : Outside) (ps : List Proto) : World :=
  ⟨sourceOf O ps, O.ctx, paramOf ps, O.order, O.qsort, O.order_perm, O.qsort_perm⟩

/-- a piece of loading; if it does not end, or does something undefined, so does the call -/
def Fac.loading (F : Fac) (r : Option Lib) : Res := match r with
  | some L => ({ F with lib := L }, none)
  | none => (F, some .ub)

/-- one child of `<hrc>` (`parseHrcBlock` 211-228) -/
def hrcChild (O : Outside) (file : Name) (k : Elem) (F : Fac) : Res :=
  if k.tag = lit "prototype" ∨ k.tag = lit "package" then addPrototype O file k F
  else if k.tag = lit "type" then
    F.loading (Hrc.addType (worldOf O F.types) (Hrc.load (worldOf O F.types) O.fuel) F.lib (declOf k))
  else (F, none)

/-- the end of `parseHRC` (202-206); `outer`: this call has set `updateStarted` -/
def finishHrc (O : Outside) (outer : Bool) (F : Fac) : Res :=
  if outer then
    F.loading ((Hrc.links (worldOf O F.types) (Hrc.load (worldOf O F.types) O.fuel)
      (Hrc.rounds (worldOf O F.types) { F.lib with changed := true } + 1) { F.lib with changed := true }).map fun L => { L with updating := false })
  else ({ F with lib := { F.lib with changed := true } }, none)

/-- `loadSource` (35-50), `parseHRC` (176-209). An exception leaves `updateStarted` as it is. -/
def loadSource (O : Outside) (file : Name) (F : Fac) : Res :=
  match O.root file with
  | none => (F, some .lib)
  | some r =>
    if r.tag = lit "hrc" then
      match steps (hrcChild O file) r.kids { F with lib := { F.lib with updating := true } } with
      | (F1, some e) => (F1, some e)
      | (F1, none) => finishHrc O (!F.lib.updating) F1
    else (F, some .lib)

/-- `loadHrc` (ParserFactoryImpl.cpp 61-70) -/
def loadHrc (O : Outside) (base : Option Name) (path : Name) (F : Fac) : Res :=
  match O.locate base path with
  | .error e => (F, some e)
  | .ok p => swallow (loadSource O p F)

/-- "jar:" (base/BaseNames.h 8) -/
def jarP : Name := lit "jar:"

/-- `isFsURI` (XmlInputSource.cpp 25-31) -/
def isFs (a b : Name) : Bool := !(jarP.isPrefixOf a || jarP.isPrefixOf b)

/-- `loadHrcPath` (43-59) inside its `try` -/
def loadHrcIn (O : Outside) (base loc : Name) (F : Fac) : Res :=
  if isFs base loc then
    match O.files base loc with
    | .error e => (F, some e)
    | .ok fs => steps (loadHrc O none) fs F
  else loadHrc O (some base) loc F

/-- `loadHrcPath` (43-59); without a catalogue the pointer to its path is null -/
def loadHrcPath (O : Outside) (loc : Name) (F : Fac) : Res := match F.base with
  | none => (F, some .ub)
  | some base => swallow (loadHrcIn O base loc F)

/-- the path of the catalogue (21-34) -/
def catalogPath (O : Outside) (path : Option Name) : Except Err Name :=
  match path with
  | some (c :: p) => O.normal (c :: p)
  | _ => match O.env (lit "COLORER_CATALOG") with
    | some (c :: p) => O.normal (c :: p)
    | _ => .error .lib

/-- `loadCatalog` (18-41), `parseCatalog` (72-84) -/
def loadCatalog (O : Outside) (path : Option Name) (F : Fac) : Res :=
  match catalogPath O path with
  | .error e => (F, some e)
  | .ok p => match parseCat O p with
    | .error e => ({ F with base := some p }, some e)
    | .ok c => steps (loadHrcPath O) c.hrcs { F with base := some p, hrcs := c.hrcs, hrds := c.hrds.foldl addHrd [] }

/-- `getHrdNode` (109-121); `none`: it throws -/
def getHrdNode (F : Fac) (cls name : Name) : Option HrdNode :=
  match F.hrds.find? (·.1 = cls) with
  | none => none
  | some (_, l) => l.find? (·.name = name)

/-- `HrcLibrary::getFileType` -/
def Fac.getFileType (F : Fac) (name : Name) : Option Proto := findType F.types name

/-! ## Colour schemes -/

/-- the value of a hexadecimal digit -/
def hexVal (c : Nat) : Option Nat :=
  if 48 ≤ c ∧ c ≤ 57 then some (c - 48)
  else if 97 ≤ c ∧ c ≤ 102 then some (c - 87)
  else if 65 ≤ c ∧ c ≤ 70 then some (c - 55)
  else none

/-- the digits at the beginning, as a number -/
def hexDigits : List Nat → Nat → Nat
  | [], n => n
  | c :: r, n => match hexVal c with
    | some d => hexDigits r (n * 16 + d)
    | none => n

/-- `isspace` of the C locale -/
def cSpace (c : Nat) : Bool := c = 32 || (9 ≤ c && c ≤ 13)

/-- does a number begin here? -/
def hexStarts : List Nat → Bool
  | [] => false
  | c :: _ => (hexVal c).isSome

/-- "0x" before a digit is skipped -/
def skip0x : List Nat → List Nat
  | 48 :: x :: r => if (x = 120 || x = 88) && hexStarts r then r else 48 :: x :: r
  | l => l

/-- `strtoul(s, nullptr, 16)` after the sign, 64 bit: `none` is an exception of `std::stoul` -/
def unsignedHex (neg : Bool) (s : List Nat) : Option Nat :=
  if hexStarts (skip0x s) then
    if 2 ^ 64 ≤ hexDigits (skip0x s) 0 then none
    else some (if neg then (2 ^ 64 - hexDigits (skip0x s) 0) % 2 ^ 64 else hexDigits (skip0x s) 0)
  else none

/-- `std::stoul(s, nullptr, 16)` -/
def stoul16 (s : List Nat) : Option Nat := match s.dropWhile cSpace with
  | 43 :: r => unsignedHex false r
  | 45 :: r => unsignedHex true r
  | l => unsignedHex false l

/-- `UStr::HexToUInt` (icu/UStr.cpp 219-236): a leading '#' is dropped; the result is cut to 32 bits -/
def hexToUInt (s : Name) : Option (BitVec 32) :=
  (stoul16 (match s with | 35 :: r => r | l => l)).map (BitVec.ofNat 32)

/-- a colour attribute: is it set, and to what (StyledHRDMapper.cpp 33-45) -/
def colourAttr (el : Elem) (key : Name) : Option (BitVec 32) := if el.attr key = [] then none else hexToUInt (el.attr key)

/-- the value of an `<assign>` of a styled scheme (33-52) -/
def styledOf (el : Elem) : Styles.Styled :=
  ⟨(colourAttr el (lit "fore")).isSome, (colourAttr el (lit "back")).isSome, (colourAttr el (lit "fore")).getD 0, (colourAttr el (lit "back")).getD 0,
    (colourAttr el (lit "style")).getD 0⟩

/-- a markup attribute: null when empty (TextRegion.cpp 9-20) -/
def markAttr (el : Elem) (key : Name) : Option Name := if el.attr key = [] then none else some (el.attr key)

/-- the value of an `<assign>` of a text scheme (TextHRDMapper.cpp 34-39) -/
def textOf (el : Elem) : Styles.Text :=
  ⟨markAttr el (lit "stext"), markAttr el (lit "etext"), markAttr el (lit "sback"), markAttr el (lit "eback")⟩

/-- the mapper's definitions (`regionDefines`): erase, then emplace -/
def define {V : Type} (m : List (Name × V)) (n : Name) (v : V) : List (Name × V) := m.filter (·.1 ≠ n) ++ [(n, v)]

/-- the loop over `<assign>` (StyledHRDMapper.cpp 20-55, TextHRDMapper.cpp 20-42) -/
def assigns {V : Type} (val : Elem → V) : List Elem → List (Name × V) → List (Name × V)
  | [], m => m
  | k :: r, m =>
    if k.tag = lit "assign" then
      if k.attr (lit "name") = [] then assigns val r m else assigns val r (define m (k.attr (lit "name")) (val k))
    else assigns val r m

/-- `loadRegionMappings` -/
def loadMappings {V : Type} (O : Outside) (val : Elem → V) (path : Name) (m : List (Name × V)) : Except Err (List (Name × V)) :=
  match O.root path with
  | none => .error .lib
  | some r => if r.tag = lit "hrd" then .ok (assigns val r.kids m) else .error .lib

/-- the loop of `fillMapper` (179-190): any library exception becomes another one -/
def fillAll {V : Type} (O : Outside) (val : Elem → V) (base : Option Name) : List Name → List (Name × V) → Except Err (List (Name × V))
  | [], m => .ok m
  | l :: r, m =>
    if l = [] then fillAll O val base r m
    else match O.locate base l with
      | .error e => .error e
      | .ok p => match loadMappings O val p m with
        | .error e => .error e
        | .ok m1 => fillAll O val base r m1

/-- the name of the scheme (163-175). With the environment variable set, the pointer outlives the string it points to. -/
def hrdName (O : Outside) (name : Option Name) : Except Err Name :=
  match name with
  | some n => .ok n
  | none => match O.env (lit "COLORER_HRD") with
    | some _ => .error .ub
    | none => .ok (lit "default")

/-- `fillMapper` (161-191) on an empty mapper -/
def createMapper {V : Type} (O : Outside) (val : Elem → V) (F : Fac) (cls : Name) (name : Option Name) : Except Err (List (Name × V)) :=
  match hrdName O name with
  | .error e => .error e
  | .ok n => match getHrdNode F cls n with
    | none => .error .lib
    | some h => fillAll O val F.base h.locs []

/-- `createStyledMapper` (133-149) -/
def createStyledMapper (O : Outside) (F : Fac) (cls : Option Name) (name : Option Name) : Except Err (List (Name × Styles.Styled)) :=
  createMapper O styledOf F (cls.getD (lit "rgb")) name

/-- `createTextMapper` (151-159) -/
def createTextMapper (O : Outside) (F : Fac) (name : Option Name) : Except Err (List (Name × Styles.Text)) :=
  createMapper O textOf F (lit "text") name

end Verif.Factory
