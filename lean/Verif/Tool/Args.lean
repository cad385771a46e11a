import Verif.Tool.Model
/-!
# C76: the command line of the console tool

Models /repo/tools/colorer/ConsoleToolsRunner.cpp: `readArgs` (45-210), `initConsoleTools` (252-277) as far as the output depends on it.

An argument is a C string: a list of characters other than 0, with a 0 behind them; reading behind that 0 is a failure (`none`). `atoi` is left to
the C library: the text after `-p` is kept.
-/
namespace Verif.Tool.Args
open Verif.Strings (Str)
open Verif.Viewer (lit)

/-- `JobType` (8-20) -/
inductive Job where
  | nothing | regTest | profile | listLoad | listTypes | listTypeNames | loadType | view | gen | genTokens | forward
deriving DecidableEq, Repr

/-- the settings with a text -/
inductive Slot where
  | links | type | output | hrd | catalog | logPrefix | logDir | logLevel
deriving DecidableEq, Repr

/-- the settings without one; all but `numbers` switch something off -/
inductive Flag where
  | numbers | noCopyright | noBom | noEscape | noWrap
deriving DecidableEq, Repr

/-- `setting` (22-40); the texts that have defaults are `none` for the default -/
structure Settings where
  job     : Job
  input   : Option Str
  /-- the text behind `-p` -/
  loops   : Option Str
  value   : Slot → Option Str
  flag    : Flag → Bool

def Settings.init : Settings := ⟨.nothing, none, none, fun _ => none, fun _ => false⟩

/-- `argv[i][k]` -/
def chr (a : Str) (k : Nat) : Option Nat := if k < a.length then a[k]? else if k = a.length then some 0 else none

/-- what an argument does -/
inductive Act where
  | file (s : Str)
  | profile (loops : Option Str)
  | job (j : Job)
  | flag (f : Flag)
  | value (o : Slot) (v : Str)
  | unknown (s : Str)
  | nothing
deriving DecidableEq, Repr

/-- an action, and whether the next argument is used up -/
abbrev Ans := Option (Act × Bool)

/-- `if (argv[i][1] == c) t` -/
def is1 (a : Str) (c : Nat) (t e : Ans) : Ans := (chr a 1).bind fun x => if x = c then t else e

/-- `if (argv[i][1] == c && argv[i][2] == d) t` -/
def is2 (a : Str) (c d : Nat) (t e : Ans) : Ans :=
  (chr a 1).bind fun x => if x = c then (chr a 2).bind fun y => if y = d then t else e else e

/-- the rest of the condition, `(i + 1 < argc || argv[i][k])`, and the body: the value is behind the option or the next argument -/
def valued (a : Str) (next : Option Str) (k : Nat) (o : Slot) (e : Ans) : Ans :=
  (chr a k).bind fun x => if x ≠ 0 then some (.value o (a.drop k), false) else match next with
    | some v => some (.value o v, true)
    | none => e

/-- the body of the loop (47-209) for the argument `a`, followed by `next` -/
def classify (a : Str) (next : Option Str) : Ans :=
  (chr a 0).bind fun c0 =>
  if c0 ≠ 45 then some (.file a, false) else
  -- p, r, f, v
  is1 a 112 ((chr a 2).bind fun x => some (.profile (if x ≠ 0 then some (a.drop 2) else none), false)) <|
  is1 a 114 (some (.job .regTest, false)) <|
  is1 a 102 (some (.job .forward, false)) <|
  is1 a 118 (some (.job .view, false)) <|
  -- ht, h
  is2 a 104 116 (some (.job .genTokens, false)) <|
  is1 a 104 (some (.job .gen, false)) <|
  -- ls, ln, ll, lt, ld, l
  let l := is2 a 108 110 (some (.flag .numbers, false)) <|
    is2 a 108 108 (some (.job .listLoad, false)) <|
    is2 a 108 116 (some (.job .listTypeNames, false)) <|
    is2 a 108 100 (some (.job .loadType, false)) <|
    is1 a 108 (some (.job .listTypes, false)) <|
    -- dc, db, ds, dh
    is2 a 100 99 (some (.flag .noCopyright, false)) <|
    is2 a 100 98 (some (.flag .noBom, false)) <|
    is2 a 100 115 (some (.flag .noEscape, false)) <|
    is2 a 100 104 (some (.flag .noWrap, false)) <|
    -- t, o, i, c, eh, ed, el; anything else
    let rest := (chr a 1).bind fun x => if x ≠ 0 then some (.unknown (a.drop 1), false) else some (.nothing, false)
    let el := is2 a 101 108 (valued a next 3 .logLevel rest) rest
    let ed := is2 a 101 100 (valued a next 3 .logDir el) el
    let eh := is2 a 101 104 (valued a next 3 .logPrefix ed) ed
    let c := is1 a 99 (valued a next 2 .catalog eh) eh
    let i := is1 a 105 (valued a next 2 .hrd c) c
    let o := is1 a 111 (valued a next 2 .output i) i
    is1 a 116 (valued a next 2 .type o) o
  is2 a 108 115 (valued a next 3 .links l) l

/-- the assignments of the body -/
def Settings.apply (s : Settings) : Act → Settings
  | .file f => { s with input := some f }
  | .profile n => { s with job := .profile, loops := n.or s.loops }
  | .job j => { s with job := j }
  | .flag f => { s with flag := fun g => if g = f then true else s.flag g }
  | .value o v => { s with value := fun p => if p = o then some v else s.value p }
  | .unknown _ => s
  | .nothing => s

/-- the warning (206-208) -/
def Act.warns : Act → List Str
  | .unknown s => [s]
  | .file _ => [] | .profile _ => [] | .job _ => [] | .flag _ => [] | .value _ _ => [] | .nothing => []

/-- `readArgs` (45-210): the settings and the options warned about -/
def readArgs (s : Settings) : List Str → Option (Settings × List Str)
  | [] => some (s, [])
  | [a] => (classify a none).bind fun x => some (s.apply x.1, x.1.warns)
  | a :: b :: r =>
    (classify a (some b)).bind fun x =>
      (if x.2 then readArgs (s.apply x.1) r else readArgs (s.apply x.1) (b :: r)).map fun y => (y.1, x.1.warns ++ y.2)
termination_by l => l.length
decreasing_by all_goals (simp only [List.length_cons]; omega)

/-- `initConsoleTools` (252-277) and the tool's own options for a page -/
def Settings.opts (s : Settings) (format : Format) (links : Option (Str → Option Str)) : Opts :=
  ⟨format, !s.flag .noWrap, !s.flag .noEscape, !s.flag .noCopyright, s.flag .numbers, links⟩

/-- `loadType` (ConsoleTools.cpp 187-215): the type that is loaded, among the types listed -/
def loadType (types : List Str) (desc : Option Str) : Except Fail (Option Str) :=
  match types with
  | [] => .ok none
  | t :: r => match desc with
    | none => .error .null
    | some d => if t = d then .ok (some t) else loadType r desc

/-! ## Specification: the usage text (212-247) -/

/-- the commands -/
def jobName : Job → Str
  | .regTest => lit "-r" | .listLoad => lit "-ll" | .listTypes => lit "-l" | .listTypeNames => lit "-lt" | .loadType => lit "-ld" | .view => lit "-v"
  | .gen => lit "-h" | .genTokens => lit "-ht" | .forward => lit "-f" | .profile => lit "-p" | .nothing => lit "-"

/-- the parameters with a value -/
def slotName : Slot → Str
  | .links => lit "-ls" | .type => lit "-t" | .output => lit "-o" | .hrd => lit "-i" | .catalog => lit "-c" | .logPrefix => lit "-eh" | .logDir => lit "-ed"
  | .logLevel => lit "-el"

/-- the parameters without -/
def flagName : Flag → Str
  | .numbers => lit "-ln" | .noCopyright => lit "-dc" | .noBom => lit "-db" | .noEscape => lit "-ds" | .noWrap => lit "-dh"

/-- what a user means -/
inductive Word where
  | command (j : Job)
  /-- profile with a number of loops -/
  | loops (n : Str)
  | switch (f : Flag)
  /-- a parameter with its value behind it, or as the next argument -/
  | value (o : Slot) (v : Str) (apart : Bool)
  | file (f : Str)

/-- how it is written -/
def Word.written : Word → List Str
  | .command j => [jobName j]
  | .loops n => [lit "-p" ++ n]
  | .switch f => [flagName f]
  | .value o v apart => if apart then [slotName o, v] else [slotName o ++ v]
  | .file f => [f]

/-- what can be written: values behind the option are not empty, files do not begin with `-`; no character is 0 -/
def Word.Ok : Word → Prop
  | .command j => j ≠ .nothing
  | .loops n => n ≠ [] ∧ 0 ∉ n
  | .switch _ => True
  | .value _ v apart => 0 ∉ v ∧ (apart = false → v ≠ [])
  | .file f => 0 ∉ f ∧ f.head? ≠ some 45

/-- the command of a word, its value for a parameter, its file, its number of loops -/
def Word.job? : Word → Option Job
  | .command j => some j
  | .loops _ => some .profile
  | .switch _ => none | .value _ _ _ => none | .file _ => none
def Word.value? (o : Slot) : Word → Option Str
  | .value p v _ => if p = o then some v else none
  | .command _ => none | .loops _ => none | .switch _ => none | .file _ => none
def Word.file? : Word → Option Str
  | .file f => some f
  | .command _ => none | .loops _ => none | .switch _ => none | .value _ _ _ => none
def Word.loops? : Word → Option Str
  | .loops n => some n
  | .command _ => none | .switch _ => none | .value _ _ _ => none | .file _ => none

/-- The settings a command line stands for: the last command, the last file and the last value for a parameter count, a switch counts wherever it is. -/
structure Means (ws : List Word) (s : Settings) : Prop where
  job   : s.job = ((ws.filterMap Word.job?).getLast?).getD .nothing
  input : s.input = (ws.filterMap Word.file?).getLast?
  loops : s.loops = (ws.filterMap Word.loops?).getLast?
  value : ∀ o, s.value o = (ws.filterMap (Word.value? o)).getLast?
  flag  : ∀ f, s.flag f = true ↔ Word.switch f ∈ ws

/-! ## Proof -/

theorem chr_zero {a : Str} : chr a 0 = some (a.headD 0) := by
  cases a <;> simp [chr]

theorem chr_cons {c : Nat} {a : Str} {k : Nat} : chr (c :: a) (k + 1) = chr a k := by simp [chr]

/-- reading is safe at the head -/
theorem chr_head (a : Str) : ∃ x, chr a 0 = some x ∧ (x ≠ 0 → ∃ r, a = x :: r) ∧ (0 ∉ a → x = 0 → a = []) := by
  cases a with
  | nil => exact ⟨0, by simp [chr], by simp, by simp⟩
  | cons c r => exact ⟨c, by simp [chr], fun _ => ⟨r, rfl⟩, fun h hc => by subst hc; simp at h⟩

theorem is1_safe {r : Str} {c : Nat} {t e : Ans} (ht : (∃ s, r = c :: s) → t.isSome) (he : e.isSome) (hc : c ≠ 0) : (is1 (45 :: r) c t e).isSome := by
  unfold is1
  obtain ⟨x, h1, h2, _⟩ := chr_head r
  rw [chr_cons, h1, Option.bind_some]
  split
  · rename_i hx
    subst hx
    exact ht (h2 hc)
  · exact he

theorem is2_safe {r : Str} {c d : Nat} {t e : Ans} (ht : (∃ s, r = c :: d :: s) → t.isSome) (he : e.isSome) (hc : c ≠ 0) (hd : d ≠ 0) :
    (is2 (45 :: r) c d t e).isSome := by
  unfold is2
  obtain ⟨x, h1, h2, _⟩ := chr_head r
  rw [chr_cons, h1, Option.bind_some]
  split
  · rename_i hx
    subst hx
    obtain ⟨s, rfl⟩ := h2 hc
    rw [chr_cons, chr_cons]
    obtain ⟨y, k1, k2, _⟩ := chr_head s
    rw [k1, Option.bind_some]
    split
    · rename_i hy
      subst hy
      obtain ⟨u, rfl⟩ := k2 hd
      exact ht ⟨u, rfl⟩
    · exact he
  · exact he

theorem valued_safe2 {r : Str} {next : Option Str} {o : Slot} {e : Ans} {c : Nat} (h : ∃ s, r = c :: s) (he : e.isSome) :
    (valued (45 :: r) next 2 o e).isSome := by
  obtain ⟨s, rfl⟩ := h
  unfold valued
  rw [chr_cons, chr_cons]
  obtain ⟨y, k1, _⟩ := chr_head s
  rw [k1, Option.bind_some]
  split
  · rfl
  · cases next with
    | none => exact he
    | some v => rfl

theorem valued_safe3 {r : Str} {next : Option Str} {o : Slot} {e : Ans} {c d : Nat} (h : ∃ s, r = c :: d :: s) (he : e.isSome) :
    (valued (45 :: r) next 3 o e).isSome := by
  obtain ⟨s, rfl⟩ := h
  unfold valued
  rw [chr_cons, chr_cons, chr_cons]
  obtain ⟨y, k1, _⟩ := chr_head s
  rw [k1, Option.bind_some]
  split
  · rfl
  · cases next with
    | none => exact he
    | some v => rfl

theorem classify_safe (a : Str) (next : Option Str) : (classify a next).isSome := by
  unfold classify
  obtain ⟨x, h1, h2, _⟩ := chr_head a
  rw [h1, Option.bind_some]
  split
  · rfl
  · rename_i hx
    have hx : x = 45 := by omega
    subst hx
    obtain ⟨r, rfl⟩ := h2 (by omega)
    have hrest : ((chr (45 :: r) 1).bind fun x => if x ≠ 0 then some (Act.unknown ((45 :: r).drop 1), false) else some (Act.nothing, false)).isSome := by
      obtain ⟨y, k1, _⟩ := chr_head r
      rw [chr_cons, k1, Option.bind_some]
      split <;> rfl
    have hel := is2_safe (r := r) (c := 101) (d := 108) (fun h => valued_safe3 (next := next) (o := .logLevel) h hrest) hrest (by omega) (by omega)
    have hed := is2_safe (r := r) (c := 101) (d := 100) (fun h => valued_safe3 (next := next) (o := .logDir) h hel) hel (by omega) (by omega)
    have heh := is2_safe (r := r) (c := 101) (d := 104) (fun h => valued_safe3 (next := next) (o := .logPrefix) h hed) hed (by omega) (by omega)
    have hc := is1_safe (r := r) (c := 99) (fun h => valued_safe2 (next := next) (o := .catalog) h heh) heh (by omega)
    have hi := is1_safe (r := r) (c := 105) (fun h => valued_safe2 (next := next) (o := .hrd) h hc) hc (by omega)
    have ho := is1_safe (r := r) (c := 111) (fun h => valued_safe2 (next := next) (o := .output) h hi) hi (by omega)
    have ht := is1_safe (r := r) (c := 116) (fun h => valued_safe2 (next := next) (o := .type) h ho) ho (by omega)
    dsimp only
    refine is1_safe ?_ ?_ (by omega)
    · rintro ⟨s, rfl⟩
      obtain ⟨y, k1, _⟩ := chr_head s
      rw [chr_cons, chr_cons, k1, Option.bind_some]
      rfl
    · refine is1_safe (fun _ => rfl) (is1_safe (fun _ => rfl) (is1_safe (fun _ => rfl) (is2_safe (fun _ => rfl) (is1_safe (fun _ => rfl) ?_ (by omega))
        (by omega) (by omega)) (by omega)) (by omega)) (by omega)
      have hl := is2_safe (r := r) (c := 108) (d := 110) (t := some (.flag .numbers, false)) (fun _ => rfl) (is2_safe (r := r) (c := 108) (d := 108) (t := some (.job .listLoad, false)) (fun _ => rfl)
        (is2_safe (r := r) (c := 108) (d := 116) (t := some (.job .listTypeNames, false)) (fun _ => rfl)
        (is2_safe (r := r) (c := 108) (d := 100) (t := some (.job .loadType, false)) (fun _ => rfl) (is1_safe (r := r) (c := 108) (t := some (.job .listTypes, false)) (fun _ => rfl)
        (is2_safe (r := r) (c := 100) (d := 99) (t := some (.flag .noCopyright, false)) (fun _ => rfl) (is2_safe (r := r) (c := 100) (d := 98) (t := some (.flag .noBom, false)) (fun _ => rfl)
        (is2_safe (r := r) (c := 100) (d := 115) (t := some (.flag .noEscape, false)) (fun _ => rfl) (is2_safe (r := r) (c := 100) (d := 104) (t := some (.flag .noWrap, false)) (fun _ => rfl) ht
        (by omega) (by omega)) (by omega) (by omega)) (by omega) (by omega)) (by omega) (by omega)) (by omega)) (by omega) (by omega)) (by omega) (by omega))
        (by omega) (by omega)) (by omega) (by omega)
      exact is2_safe (fun h => valued_safe3 h hl) hl (by omega) (by omega)

/-- what one word does -/
def Word.act : Word → Act
  | .command .profile => .profile none
  | .command j => .job j
  | .loops n => .profile (some n)
  | .switch f => .flag f
  | .value o v _ => .value o v
  | .file f => .file f

theorem head_ne {v : Str} (h0 : 0 ∉ v) (h : v ≠ []) : ∃ c r, v = c :: r ∧ c ≠ 0 := by
  cases v with
  | nil => exact absurd rfl h
  | cons c r => exact ⟨c, r, rfl, by rintro rfl; simp at h0⟩

/-- one word, whatever follows it -/
theorem classify_word (w : Word) (h : w.Ok) (rest : List Str) :
    (∃ a, w.written = [a] ∧ classify a rest.head? = some (w.act, false)) ∨ (∃ a b, w.written = [a, b] ∧ classify a (some b) = some (w.act, true)) := by
  cases w with
  | command j =>
    left
    refine ⟨_, rfl, ?_⟩
    cases j <;> first | rfl | exact absurd rfl h
  | loops n =>
    left
    refine ⟨_, rfl, ?_⟩
    obtain ⟨c, r, rfl, hc⟩ := head_ne h.2 h.1
    simp [classify, is1, chr, lit, hc, Word.act]
  | switch f =>
    left
    refine ⟨_, rfl, ?_⟩
    cases f <;> rfl
  | value o v apart =>
    cases apart with
    | true =>
      right
      refine ⟨slotName o, v, rfl, ?_⟩
      cases o <;> rfl
    | false =>
      left
      refine ⟨slotName o ++ v, rfl, ?_⟩
      obtain ⟨c, r, rfl, hc⟩ := head_ne h.1 (h.2 rfl)
      cases o <;> simp [classify, is1, is2, valued, chr, lit, hc, Word.act, slotName]
  | file f =>
    left
    refine ⟨f, rfl, ?_⟩
    unfold classify
    rw [chr_zero, Option.bind_some]
    have : f.headD 0 ≠ 45 := by
      have h2 := h.2
      cases f with
      | nil => simp
      | cons c r => simpa using h2
    rw [if_pos this]
    rfl

theorem warns_word (w : Word) : w.act.warns = [] := by
  cases w with
  | command j => cases j <;> rfl
  | loops _ => rfl | switch _ => rfl | value _ _ _ => rfl | file _ => rfl

theorem readArgs_words (ws : List Word) : ∀ (s : Settings), (∀ w ∈ ws, w.Ok) →
    readArgs s (ws.flatMap Word.written) = some (ws.foldl (fun s w => s.apply w.act) s, []) := by
  induction ws with
  | nil => intro s _; simp [readArgs]
  | cons w ws ih =>
    intro s h
    rw [List.flatMap_cons]
    have ih := ih (s.apply w.act) (fun w hw => h w (by simp [hw]))
    have hw := warns_word w
    rcases classify_word w (h w (by simp)) (ws.flatMap Word.written) with ⟨a, h1, h2⟩ | ⟨a, b, h1, h2⟩
    · rw [h1, List.singleton_append]
      cases hr : ws.flatMap Word.written with
      | nil =>
        rw [hr] at h2 ih
        simp only [readArgs, Option.some.injEq, Prod.mk.injEq, and_true] at ih
        rw [readArgs, show classify a none = _ from h2, Option.bind_some, List.foldl_cons, ← ih, hw]
      | cons b r =>
        rw [hr] at h2 ih
        rw [readArgs, show classify a (some b) = _ from h2, Option.bind_some, if_neg (by simp), ih, List.foldl_cons, hw]
        rfl
    · rw [h1, List.cons_append, List.cons_append, List.nil_append, readArgs, h2, Option.bind_some, if_pos rfl, ih, List.foldl_cons, hw]
      rfl

theorem fold_means (ws : List Word) : ∀ (s : Settings),
    let s' := ws.foldl (fun s w => s.apply w.act) s
    s'.job = ((ws.filterMap Word.job?).getLast?).getD s.job ∧ s'.input = (ws.filterMap Word.file?).getLast?.or s.input ∧
    s'.loops = (ws.filterMap Word.loops?).getLast?.or s.loops ∧ (∀ o, s'.value o = (ws.filterMap (Word.value? o)).getLast?.or (s.value o)) ∧
    (∀ f, s'.flag f = true ↔ (s.flag f = true ∨ Word.switch f ∈ ws)) := by
  induction ws with
  | nil => intro s; simp
  | cons w ws ih =>
    intro s
    obtain ⟨h1, h2, h3, h4, h5⟩ := ih (s.apply w.act)
    dsimp only at h1 h2 h3 h4 h5 ⊢
    rw [List.foldl_cons]
    refine ⟨?_, ?_, ?_, ?_, ?_⟩
    · rw [h1]
      cases w with
      | command j => rw [List.filterMap_cons_some (f := Word.job?) (b := j) rfl, List.getLast?_cons]; cases j <;> cases (ws.filterMap Word.job?).getLast? <;> rfl
      | loops n => rw [List.filterMap_cons_some (f := Word.job?) (b := Job.profile) rfl, List.getLast?_cons]; cases (ws.filterMap Word.job?).getLast? <;> rfl
      | switch f => rw [List.filterMap_cons_none rfl]; rfl
      | value o v p => rw [List.filterMap_cons_none rfl]; rfl
      | file f => rw [List.filterMap_cons_none rfl]; rfl
    · rw [h2]
      cases w with
      | file f => rw [List.filterMap_cons_some (f := Word.file?) (b := f) rfl, List.getLast?_cons]; cases (ws.filterMap Word.file?).getLast? <;> rfl
      | command j => rw [List.filterMap_cons_none rfl]; cases j <;> rfl
      | loops n => rw [List.filterMap_cons_none rfl]; rfl
      | switch f => rw [List.filterMap_cons_none rfl]; rfl
      | value o v p => rw [List.filterMap_cons_none rfl]; rfl
    · rw [h3]
      cases w with
      | loops n => rw [List.filterMap_cons_some (f := Word.loops?) (b := n) rfl, List.getLast?_cons]; cases (ws.filterMap Word.loops?).getLast? <;> rfl
      | command j => rw [List.filterMap_cons_none rfl]; cases j <;> rfl
      | file n => rw [List.filterMap_cons_none rfl]; rfl
      | switch f => rw [List.filterMap_cons_none rfl]; rfl
      | value o v p => rw [List.filterMap_cons_none rfl]; rfl
    · intro o
      rw [h4]
      cases w with
      | value p v ap =>
        by_cases hp : p = o
        · subst hp
          rw [List.filterMap_cons_some (b := v) (by simp [Word.value?]), List.getLast?_cons]
          cases (ws.filterMap (Word.value? p)).getLast? <;> simp [Word.act, Settings.apply]
        · rw [List.filterMap_cons_none (by simp [Word.value?, hp])]
          simp only [Word.act, Settings.apply]
          rw [if_neg (fun h => hp h.symm)]
      | command j => rw [List.filterMap_cons_none rfl]; cases j <;> rfl
      | loops n => rw [List.filterMap_cons_none rfl]; rfl
      | switch f => rw [List.filterMap_cons_none rfl]; rfl
      | file f => rw [List.filterMap_cons_none rfl]; rfl
    · intro f
      rw [h5]
      cases w with
      | switch g =>
        simp only [Word.act, Settings.apply, List.mem_cons, Word.switch.injEq]
        by_cases hg : f = g
        · simp [hg]
        · simp [hg]
      | command j => cases j <;> simp [Word.act, Settings.apply]
      | loops n => simp [Word.act, Settings.apply]
      | value o v p => simp [Word.act, Settings.apply]
      | file f => simp [Word.act, Settings.apply]

/-! ## Theorems -/

/-- C76: the tool reads no argument beyond its end, whatever the arguments are -/
theorem C76_arguments_are_read_inside (s : Settings) (args : List Str) : ∃ s' warn, readArgs s args = some (s', warn) := by
  have : ∀ (n : Nat) (s : Settings) (args : List Str), args.length ≤ n → ∃ s' warn, readArgs s args = some (s', warn) := by
    intro n
    induction n with
    | zero =>
      intro s args h
      cases args with
      | nil => exact ⟨s, [], by simp [readArgs]⟩
      | cons a r => simp at h
    | succ n ih =>
      intro s args h
      match args, h with
      | [], _ => exact ⟨s, [], by simp [readArgs]⟩
      | [a], _ =>
        obtain ⟨x, hx⟩ := Option.isSome_iff_exists.1 (classify_safe a none)
        exact ⟨_, _, by rw [readArgs, hx, Option.bind_some]⟩
      | a :: b :: r, h =>
        obtain ⟨x, hx⟩ := Option.isSome_iff_exists.1 (classify_safe a (some b))
        rw [readArgs, hx, Option.bind_some]
        simp only [List.length_cons] at h
        split
        · obtain ⟨s', w, hy⟩ := ih (s.apply x.1) r (by omega)
          exact ⟨s', x.1.warns ++ w, by rw [hy]; rfl⟩
        · obtain ⟨s', w, hy⟩ := ih (s.apply x.1) (b :: r) (by simp only [List.length_cons]; omega)
          exact ⟨s', x.1.warns ++ w, by rw [hy]; rfl⟩
  exact this _ s args (Nat.le_refl _)

/-- C76: a command line written as the usage text says is understood, whatever the order of its words: the last command, file and value count, switches count
wherever they are, and nothing is warned about. -/
theorem C76_command_line (ws : List Word) (h : ∀ w ∈ ws, w.Ok) : ∃ s, readArgs .init (ws.flatMap Word.written) = some (s, []) ∧ Means ws s := by
  refine ⟨_, readArgs_words ws .init h, ?_⟩
  obtain ⟨h1, h2, h3, h4, h5⟩ := fold_means ws .init
  refine ⟨h1, ?_, ?_, ?_, ?_⟩
  · rw [h2]; simp [Settings.init]
  · rw [h3]; simp [Settings.init]
  · intro o; rw [h4]; simp [Settings.init]
  · intro f; rw [h5]; simp [Settings.init]

/-- C76: what the page looks like: numbers with `-ln` only, escaping, the line of credits and the frame unless switched off -/
theorem C76_switches_reach_the_page (ws : List Word) (h : ∀ w ∈ ws, w.Ok) (fmt : Format) (links : Option (Str → Option Str)) :
    ∃ s, readArgs .init (ws.flatMap Word.written) = some (s, []) ∧ (s.opts fmt links).format = fmt ∧ (s.opts fmt links).links = links ∧
      ((s.opts fmt links).numbers = true ↔ Word.switch .numbers ∈ ws) ∧ ((s.opts fmt links).escape = true ↔ Word.switch .noEscape ∉ ws) ∧
      ((s.opts fmt links).copyright = true ↔ Word.switch .noCopyright ∉ ws) ∧ ((s.opts fmt links).wrap = true ↔ Word.switch .noWrap ∉ ws) := by
  obtain ⟨s, h1, h2⟩ := C76_command_line ws h
  refine ⟨s, h1, rfl, rfl, h2.flag _, ?_, ?_, ?_⟩
  · rw [← h2.flag]; simp [Settings.opts]
  · rw [← h2.flag]; simp [Settings.opts]
  · rw [← h2.flag]; simp [Settings.opts]

/-- C76, false for a missing value: `-ls` as the last argument is taken for `-l`, so that `colorer -h file -ls` lists the types instead of writing the page
or complaining (the other parameters without value are warned about) -/
theorem C76_violated_missing_links :
    ((readArgs .init [lit "-h", lit "file", lit "-ls"]).map fun x => (x.1.job, x.2)) = some (.listTypes, []) ∧
    ((readArgs .init [lit "-h", lit "file", lit "-t"]).map fun x => (x.1.job, x.2)) = some (.gen, [lit "t"]) := by
  constructor <;> decide +kernel

/-- C76: `-ld` loads the type with the name given by `-t`, if there is one -/
theorem C76_load_type (types : List Str) (d : Str) : ∃ r, loadType types (some d) = .ok r ∧ (d ∈ types → r = some d) ∧ (d ∉ types → r = none) := by
  induction types with
  | nil => exact ⟨none, rfl, by simp, by simp⟩
  | cons t ts ih =>
    by_cases h : t = d
    · subst h
      exact ⟨some t, by simp [loadType], by simp, by simp⟩
    · obtain ⟨r, h1, h2, h3⟩ := ih
      refine ⟨r, by simp [loadType, h, h1], ?_, ?_⟩
      · intro hd
        rcases List.mem_cons.1 hd with hd | hd
        · exact absurd hd.symm h
        · exact h2 hd
      · intro hd
        exact h3 (fun hd' => hd (by simp [hd']))

/-- C76, false without `-t`: `colorer -ld` follows a null pointer as soon as there is a type -/
theorem C76_violated_load_without_type (ws : List Word) (h : ∀ w ∈ ws, w.Ok) (ht : ∀ v b, Word.value .type v b ∉ ws) (t : Str) (types : List Str) :
    ∃ s, readArgs .init (ws.flatMap Word.written) = some (s, []) ∧ loadType (t :: types) (s.value .type) = .error .null := by
  obtain ⟨s, h1, h2⟩ := C76_command_line ws h
  refine ⟨s, h1, ?_⟩
  have : ws.filterMap (Word.value? .type) = [] := by
    rw [List.filterMap_eq_nil_iff]
    intro w hw
    cases w with
    | value o v b =>
      by_cases ho : o = .type
      · subst ho; exact absurd hw (ht v b)
      · simp [Word.value?, ho]
    | command j => rfl
    | loops n => rfl
    | switch f => rfl
    | file f => rfl
  rw [h2.value, this]
  rfl

/-- non-vacuity: `colorer -ln -h -o out.html file.c -tc -dc` -/
example : ((readArgs .init ([Word.switch .numbers, .command .gen, .value .output (lit "out.html") true, .file (lit "file.c"), .value .type (lit "c") false,
    .switch .noCopyright].flatMap Word.written)).map fun x => [some (jobName x.1.job), x.1.input, x.1.value .output, x.1.value .type] ++ x.2.map some) =
    some [some (lit "-h"), some (lit "file.c"), some (lit "out.html"), some (lit "c")] := by decide +kernel

example : ∀ w ∈ [Word.switch .numbers, .command .gen, .value .output (lit "out.html") true, .file (lit "file.c"), .value .type (lit "c") false,
    .switch .noCopyright], w.Ok := by
  intro w hw
  simp only [List.mem_cons, List.not_mem_nil, or_false] at hw
  rcases hw with rfl | rfl | rfl | rfl | rfl | rfl
  · trivial
  · exact fun h => by cases h
  · exact ⟨by decide, fun h => by cases h⟩
  · exact ⟨by decide, by decide⟩
  · exact ⟨by decide, fun _ => by decide⟩
  · trivial

end Verif.Tool.Args
