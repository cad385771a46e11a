import Verif.Strings.Model

/-!
# Model of locations, shared sources and the environment

Models, from /repo/src/colorer: io/InputSource.cpp (`getAbsolutePath` 6-19, `isRelative` 40-47), io/FileInputSource.cpp (constructor
17-48, the part for other systems than Windows), utils/Environment.cpp (`getAbsolutePath` 133-149, `expandSpecialEnvironment` 151-160,
`expandEnvironment` 162-185, not Windows, `expandEnvByRegexp` 192-212), xml/libxml2/LibXmlInputSource.cpp (`getFullPathsToZip` 62-95, use
of the shared source 27-34, 48-59), xml/libxml2/SharedXmlInputSource.cpp, xml/libxml2/LibXmlReader.cpp (`xmlZipEntityLoader` 116-133: its
use of the shared source; `xml_error_func` 186-224).

Strings are lists of character codes, with the functions of Verif.Strings. A constructor call outside its string is `none` (an exception
or a read outside).
-/
namespace Verif.Io
open Verif.Strings

/-! ## Locations -/

def SLASH : Nat := 47
def BACKSLASH : Nat := 92
def COLON : Nat := 58
def BANG : Nat := 33

/-- the larger of the two positions; `none` is -1 -/
def later : Option Nat → Option Nat → Option Nat
  | none, b => b
  | a, none => a
  | some a, some b => if b > a then some b else some a

/-- `getAbsolutePath` (InputSource.cpp:6-19, Environment.cpp:133-149): `root_pos` -/
def rootPos (base : Str) : Nat :=
  match later (lastIndexOf base SLASH none) (lastIndexOf base BACKSLASH none) with
  | none => 0
  | some p => p + 1

def getAbsolutePath (base rel : Str) : Option Str := (substr base 0 (rootPos base)).map (· ++ rel)

/-- `indexOf(':') != -1 && indexOf(':') < 10` -/
def earlyColon (path : Str) : Bool := match indexOfChar path COLON 0 with | none => false | some i => decide (i < 10)

/-- `isRelative` (InputSource.cpp:40-47) -/
def isRelative (path : Str) : Bool :=
  if earlyColon path then false
  else if decide (indexOfChar path SLASH 0 = some 0) || decide (indexOfChar path BACKSLASH 0 = some 0) then false
  else true

/-- "file:" -/
def fileP : Str := [102, 105, 108, 101, 58]

/-- `UnicodeString(s, from)` -/
def tail (s : Str) (start : Nat) : Option Str := if start ≤ s.length then some (s.drop start) else none

/-- `indexOf(':') == -1 || indexOf(':') > 10` -/
def noEarlyColon (loc : Str) : Bool := match indexOfChar loc COLON 0 with | none => true | some i => decide (i > 10)

/-- 42-47 -/
def addSlash (loc : Str) : Str :=
  if noEarlyColon loc && !startsWith loc [SLASH] 0 then SLASH :: loc else loc

/-- the constructor of FileInputSource (17-48): the location of `path`, given the location of the base source -/
def fileLocation (path : Str) (base : Option Str) : Option Str :=
  if startsWith path (fileP ++ [SLASH, SLASH]) 0 then (tail path 7).map addSlash
  else if startsWith path (fileP ++ [SLASH]) 0 then (tail path 6).map addSlash
  else if startsWith path fileP 0 then (tail path 5).map addSlash
  else match base with
    | some b => if isRelative path then getAbsolutePath b path else some path
    | none => some path

/-- "jar:" (BaseNames.h:8) -/
def jar : Str := [106, 97, 114, 58]

/-- `PathInJar` (LibXmlInputSource.h:9-14) -/
structure PathInJar where
  full : Str
  toJar : Str
  inJar : Str
deriving DecidableEq, Repr

/-- `getFullPathsToZip` (LibXmlInputSource.cpp:62-95); `expand` is expandSpecialEnvironment. `error false`: an exception; `error true`:
a string constructor called with a negative length or outside its string -/
def fullPathsToZip (expand : Str → Str) (path : Str) (base : Option Str) : Except Bool PathInJar :=
  if startsWith path jar 0 then
    let loc := expand path
    match lastIndexOf loc BANG none with
    | none => .error false
    | some i =>
      if i < 4 then .error true
      else match substr loc 4 (i - 4), tail loc (i + 1) with
      | some mid, some inn =>
        match getAbsolutePath (if Strings.compare loc path = 0 then base.getD [] else []) mid with
        | some toJar => .ok ⟨jar ++ toJar ++ [BANG] ++ inn, toJar, inn⟩
        | none => .error true
      | _, _ => .error true
  else match base with
    | none => .error false
    | some b =>
      if startsWith b jar 0 then
        match lastIndexOf b BANG none with
        | none => .error false
        | some i =>
          if i < 4 then .error true
          else match substr b 4 (i - 4), (tail b (i + 1)).bind fun t => getAbsolutePath t path with
          | some toJar, some inn => .ok ⟨jar ++ toJar ++ [BANG] ++ inn, toJar, inn⟩
          | _, _ => .error true
      else .error false

/-! ## The environment -/

def DOLLAR : Nat := 36
def LBRACE : Nat := 123
def RBRACE : Nat := 125

/-- classes of the regular expressions: `[[:alpha:]]`, `\w` -/
structure Cls where
  alpha : Nat → Bool
  word  : Nat → Bool

/-- a reference to a variable: its name, and the text behind it -/
structure Ref where
  name : Str
  rest : Str

/-- a match of `\$([[:alpha:]]\w*)\b` at the beginning (156, 181). `\w*` is greedy, behind it no word character can follow, so `\b` holds. -/
def bareRef (k : Cls) : Str → Option Ref
  | d :: c :: r => if d = DOLLAR && k.alpha c then some ⟨c :: r.takeWhile k.word, r.dropWhile k.word⟩ else none
  | _ => none

/-- a match of `\$\{([[:alpha:]]\w*)\}` at the beginning (180) -/
def braceRef (k : Cls) : Str → Option Ref
  | d :: b :: c :: r =>
    if d = DOLLAR && decide (b = LBRACE) && k.alpha c then
      match r.dropWhile k.word with
      | e :: rest => if e = RBRACE then some ⟨c :: r.takeWhile k.word, rest⟩ else none
      | [] => none
    else none
  | _ => none

/-- `regex_search`: the text before the first match, and the match with the text it was found in -/
def search (ref : Str → Option Ref) : Str → Option (Str × Str × Ref)
  | [] => none
  | c :: r => match ref (c :: r) with
    | some m => some ([], c :: r, m)
    | none => (search ref r).map fun (p, t, m) => (c :: p, t, m)

/-- `matcher[0]` -/
def whole (t : Str) (m : Ref) : Str := t.take (t.length - m.rest.length)

/-- `expandEnvByRegexp` (192-212); `env` = getOSEnv -/
def expandBy (ref : Str → Option Ref) (env : Str → Option Str) : Nat → Str → Str
  | 0, t => t
  | n + 1, t => match search ref t with
    | none => t
    | some (p, t', m) => p ++ (env m.name).getD (whole t' m) ++ expandBy ref env n m.rest

/-- `expandSpecialEnvironment` (151-160) -/
def expandSpecial (k : Cls) (env : Str → Option Str) (t : Str) : Str := expandBy (bareRef k) env t.length t

/-- `expandEnvironment` (162-185) -/
def expandEnvironment (k : Cls) (env : Str → Option Str) (t : Str) : Str :=
  if t.isEmpty then []
  else
    let res := expandBy (braceRef k) env t.length t
    expandBy (bareRef k) env res.length res

/-! ## Shared sources -/

/-- `SharedXmlInputSource` (SharedXmlInputSource.h:34-41); paths are numbers; `src` = `mSrc` once `is_open` -/
structure Shared (B : Type) where
  path : Nat
  ref  : Int
  src  : Option B

/-- the objects (a pointer is an index, a deleted object is `none`) and `isHash` (null is `none`) -/
structure Pool (B : Type) where
  objs : List (Option (Shared B))
  hash : Option (List (Nat × Nat))

def Pool.empty {B : Type} : Pool B := ⟨[], none⟩

/-- `isHash->find(path)` -/
def find (h : List (Nat × Nat)) (p : Nat) : Option Nat := (h.find? (·.1 = p)).map (·.2)

/-- `getSharedInputSource` (23-39). The result `none` is the use of a deleted object. -/
def Pool.get {B : Type} (s : Pool B) (p : Nat) : Option (Pool B × Nat) :=
  let h := s.hash.getD []
  match find h p with
  | some i => match s.objs[i]? with
    | some (some o) => some (⟨s.objs.set i (some { o with ref := o.ref + 1 }), some h⟩, i)
    | _ => none
  | none => some (⟨s.objs ++ [some ⟨p, 1, none⟩], some ((p, s.objs.length) :: h)⟩, s.objs.length)

/-- the destructor's `isHash->erase`, then `isHash` is deleted if empty (47-55) -/
def eraseHash (h : List (Nat × Nat)) (p : Nat) : Option (List (Nat × Nat)) :=
  if (h.filter (·.1 ≠ p)).isEmpty then none else some (h.filter (·.1 ≠ p))

/-- `delref` (13-21) -/
def Pool.delref {B : Type} (s : Pool B) (i : Nat) : Option (Pool B) :=
  match s.objs[i]? with
  | some (some o) =>
    if o.ref - 1 ≤ 0 then s.hash.map fun h => ⟨s.objs.set i none, eraseHash h o.path⟩
    else some { s with objs := s.objs.set i (some { o with ref := o.ref - 1 }) }
  | _ => none

/-- `open` (67-82): reads the file if it was not read; `file` = what is stored under the path, `none`: an exception -/
def Pool.openIt {B : Type} (s : Pool B) (file : Nat → Option B) (i : Nat) : Option (Pool B × Bool) :=
  match s.objs[i]? with
  | some (some o) => match o.src with
    | some _ => some (s, true)
    | none => match file o.path with
      | none => some (s, false)
      | some b => some ({ s with objs := s.objs.set i (some { o with src := some b }) }, true)
  | _ => none

/-- a program: the sources (`LibXmlInputSource`) it has, each with the path of its archive and `zip_source` -/
structure Prog (B : Type) where
  pool : Pool B
  srcs : List (Nat × Nat)

/-- what a program does -/
inductive SOp where
  /-- construct a source for an archive (initZipSource 48-59) -/
  | new (path : Nat)
  /-- destroy the `k`-th source (27-34) -/
  | del (k : Nat)
  /-- let the XML reader read the archive of the `k`-th source (xmlZipEntityLoader 116-133: `getSharedInputSource`, `open`, no `delref`) -/
  | read (k : Nat)
deriving DecidableEq, Repr

/-- one operation; `file` is the content of the files at that time -/
def Prog.step {B : Type} (g : Prog B) (file : Nat → Option B) : SOp → Option (Prog B)
  | .new p => (g.pool.get p).map fun (s, i) => ⟨s, (p, i) :: g.srcs⟩
  | .del k => match g.srcs[k]? with
    | some (_, i) => (g.pool.delref i).map fun s => ⟨s, g.srcs.eraseIdx k⟩
    | none => some g
  | .read k => match g.srcs[k]? with
    | some (p, _) => (g.pool.get p).bind fun (s, i) => (s.openIt file i).map fun (s, _) => ⟨s, g.srcs⟩
    | none => some g

/-- a history: the operations, each with the files at that time -/
def Prog.run {B : Type} (g : Prog B) : List (SOp × (Nat → Option B)) → Option (Prog B)
  | [] => some g
  | (o, f) :: r => (g.step f o).bind fun g => g.run r

def Prog.start {B : Type} : Prog B := ⟨.empty, []⟩

/-! ## Error messages -/

/-- `sizeof(buf)` -/
def SIZE : Nat := 4096

/-- `buf`, `slen`, and the messages logged -/
structure Log where
  buf  : List Nat
  slen : Nat
  out  : List Str

def Log.start : Log := ⟨List.replicate SIZE 0, 0, []⟩

/-- write characters into the buffer from a place on; `none`: outside -/
def poke : List Nat → Nat → List Nat → Option (List Nat)
  | buf, _, [] => some buf
  | buf, i, c :: r => if i < buf.length then poke (buf.set i c) (i + 1) r else none

/-- `vsnprintf(&buf[at], room, ...)` for a message: at most `room - 1` characters and a zero -/
def vsnprintf (buf : List Nat) (i room : Nat) (msg : Str) : Option (List Nat) :=
  if room = 0 then some buf else poke buf i (msg.take (room - 1) ++ [0])

/-- the text of a C string -/
def cstr (buf : List Nat) : Str := buf.takeWhile (· ≠ 0)

/-- 217-223: a line that ends with a line break is logged. The result `none` is an access outside the buffer. -/
def flush (buf : List Nat) (slen : Nat) (out : List Str) : Option Log :=
  if slen = 0 then none
  else match buf[slen - 1]? with
    | none => none
    | some c =>
      if c = 10 then some ⟨List.replicate SIZE 0, 0, out ++ [cstr (buf.set (slen - 1) 0)]⟩
      else some ⟨buf, slen, out⟩

/-- `xml_error_func` (186-224); `msg` = the formatted message, `none` = an error of vsnprintf (`rc < 0`). The result `none` is an access
outside the buffer. -/
def Log.error (s : Log) (msg : Option Str) : Option Log :=
  match msg with
  | none => some ⟨List.replicate SIZE 0, 0, s.out⟩
  | some m =>
    match vsnprintf s.buf s.slen (SIZE - s.slen) m with
    | none => none
    | some buf =>
      if s.slen + m.length ≥ SIZE then flush (buf.set (SIZE - 1) 10) SIZE s.out
      else flush buf (s.slen + m.length) s.out

def Log.run (s : Log) : List (Option Str) → Option Log
  | [] => some s
  | m :: r => (s.error m).bind fun s => s.run r

end Verif.Io
