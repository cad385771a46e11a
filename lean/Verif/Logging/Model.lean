import Verif.Logging.Sites
/-!
# The log: model

Models /repo/src/colorer/common/Logger.cpp (`print_impl_inner` 5-30), Logger.h (`Log::log` 105-114), /repo/tools/colorer/SimpleLogger.h, and of
/repo/tools/colorer/ConsoleToolsRunner.cpp the end of `workIt` (304-313) and `main` (318-332).

Texts are lists of bytes. An argument is the text that `operator<<` (or the conversion to UTF-8, 68-74) gives for it; an argument never fails to print. The job
of the tool is left open: it makes any number of log calls and ends, or ends with an exception of the library.
-/
namespace Verif.Logging
open Verif.Strings (Str)

/-- the outcome of formatting: a text, or one of the two exceptions (std::invalid_argument, not an `Exception` of the library) -/
inductive Said where
  | text (t : Str)
  | tooFew
  | stray
deriving DecidableEq, Repr

/-- `print_impl_inner` (Logger.cpp 5-30): what is left of the format (`i`), the arguments left (`a`), the stream so far -/
def inner : Str → List Str → Str → Said
  | [], _, out => .text out
  | c :: r, args, out =>
    -- '%'
    if c = 37 then
      match args with
      | [] => .tooFew
      | a :: as => inner r as (out ++ a)
    -- '\\'
    else if c = 92 then
      match r with
      | [] => .stray
      | d :: r => inner r args (out ++ [d])
    else inner r args (out ++ [c])

/-- what a log statement does: throws, nothing (no logger), or calls the logger -/
inductive Effect where
  | throws
  | nothing
  | calls (level : Nat) (message : Str)
deriving DecidableEq, Repr

/-- `Log::log` (Logger.h 105-114); the message is passed as a C string -/
def logCall (registered : Bool) (level : Nat) (fmt : Str) (args : List Str) : Effect :=
  if registered then
    match inner fmt args [] with
    | .text t => .calls level (t.takeWhile (· ≠ 0))
    | .tooFew => .throws
    | .stray => .throws
  else .nothing

/-! ## SimpleLogger.h -/

/-- `LogLevelStr` (12) -/
def levelText : Nat → Str
  | 0 => [111, 102, 102]                                -- off
  | 1 => [101, 114, 114, 111, 114]                      -- error
  | 2 => [119, 97, 114, 110, 105, 110, 103]             -- warning
  | 3 => [105, 110, 102, 111]                           -- info
  | 4 => [100, 101, 98, 117, 103]                       -- debug
  | _ => [116, 114, 97, 99, 101]                        -- trace

/-- the loop of `getLogLevel` (54-60), from the `i`-th name on, `n` names left -/
def levelLoop (t : Str) : Nat → Nat → Option Nat
  | _, 0 => none
  | i, n + 1 => if t = levelText i then some i else levelLoop t (i + 1) n

/-- `getLogLevel` (52-65) -/
def getLogLevel (t : Str) : Nat :=
  match levelLoop t 0 6 with
  | some i => i
  | none => if t = [119, 97, 114, 110] then 2 else 0

/-- the logger: whether the stream is open, the level, what is in the file -/
structure Simple where
  isOpen : Bool
  level  : Nat
  file   : Str
deriving DecidableEq, Repr

/-- what is done with a logger; `can`: the file could be opened now; `time` is the text of `strftime` -/
inductive Op where
  | log (time : Str) (level : Nat) (message : Str)
  | setLevel (level : Nat) (can : Bool)
deriving DecidableEq, Repr

/-- `open_logfile` (30-39); the second component: it throws -/
def openFile (s : Simple) (can : Bool) : Simple × Bool :=
  if s.level = 0 ∨ s.isOpen then (s, false)
  else if can then ({ s with isOpen := true }, false)
  else (s, true)

/-- the constructors (14-26); the file is opened for appending -/
def Simple.new (old : Str) (level : Nat) (can : Bool) : Simple × Bool := openFile ⟨false, level, old⟩ can

/-- 47-49 -/
def lineOf (time : Str) (level : Nat) (message : Str) : Str :=
  [91] ++ time ++ [93, 32] ++ [91] ++ levelText level ++ [93, 32] ++ message ++ [10]

/-- `log` (41-50): a stream that is not open takes nothing -/
def Simple.log (s : Simple) (time : Str) (level : Nat) (message : Str) : Simple :=
  if level > s.level then s
  else if s.isOpen then { s with file := s.file ++ lineOf time level message }
  else s

/-- `setLogLevel` (67-75); `open` of a stream clears its error state -/
def Simple.setLevel (s : Simple) (level : Nat) (can : Bool) : Simple × Bool :=
  if s.level = 0 then
    match openFile { s with level := level } can with
    | (s1, true) => (s1, true)
    | (s1, false) => ({ s1 with level := level }, false)
  else ({ s with level := level }, false)

/-- one operation; the exception is the caller's business -/
def Simple.step (s : Simple) : Op → Simple
  | .log t l m => s.log t l m
  | .setLevel l can => (s.setLevel l can).1

def Simple.run (s : Simple) (ops : List Op) : Simple := ops.foldl Simple.step s

/-! ## The tool -/

/-- a log call of the job: time, level, format, arguments -/
structure Stmt where
  time  : Str
  level : Nat
  fmt   : Str
  args  : List Str

/-- how the program ends: `main` returns, or an exception leaves it (std::terminate) -/
inductive Exit where
  | returns (code : Int)
  | terminates
deriving DecidableEq, Repr

/-- what can be seen afterwards -/
structure Seen where
  exit   : Exit
  file   : Str
  stderr : Str
deriving DecidableEq, Repr

/-- the log calls of the job, one after another; `none`: one of them throws -/
def doLogs (registered : Bool) : Simple → List Stmt → Option Simple
  | s, [] => some s
  | s, c :: r => match logCall registered c.level c.fmt c.args with
    | .throws => none
    | .nothing => doLogs registered s r
    | .calls l m => doLogs registered (s.log c.time l m) r

/-- the end of `workIt` (307-313): `COLORER_LOG_ERROR(e.what())`, then the text on stderr -/
def ending (registered : Bool) (s : Simple) (time : Str) : Option Str → Seen
  | none => ⟨.returns 0, s.file, []⟩
  | some what => match logCall registered 1 what [] with
    | .throws => ⟨.terminates, s.file, []⟩
    | .nothing => ⟨.returns (-1), s.file, what⟩
    | .calls l m => ⟨.returns (-1), (s.log time l m).file, what⟩

/-- `main` (318-332) and `workIt` with the options `-el<level>`: the file had the text `old`; the job makes the calls `calls`, and ends with the exception `what`
(`none`: without). The logger's own stream is written when the program returns; when it terminates `file` is what was written into the stream. -/
def main (levelOpt old : Str) (can : Bool) (calls : List Stmt) (time : Str) (what : Option Str) : Seen :=
  if getLogLevel levelOpt ≠ 0 then
    match Simple.new old (getLogLevel levelOpt) can with
    | (_, true) => ⟨.terminates, old, []⟩
    | (s, false) => match doLogs true s calls with
      | none => ⟨.terminates, old, []⟩
      | some s => ending true s time what
  else match doLogs false ⟨false, 0, old⟩ calls with
    | none => ⟨.terminates, old, []⟩
    | some s => ending false s time what

end Verif.Logging
