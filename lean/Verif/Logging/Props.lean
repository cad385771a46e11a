import Verif.Logging.Model
/-!
# C84: the log says what its statements say
-/
namespace Verif.Logging
open Verif.Strings (Str)

/-! ## Specification -/

/-- what a format says with some arguments: `%` stands for the next argument, `\c` for `c`, every other character for itself -/
inductive Says : Str → List Str → Str → Prop
  | nil (args) : Says [] args []
  | hole {f args t} (a : Str) : Says f args t → Says (37 :: f) (a :: args) (a ++ t)
  | quoted {f args t} (c : Nat) : Says f args t → Says (92 :: c :: f) args (c :: t)
  | plain {f args t} (c : Nat) : c ≠ 37 → c ≠ 92 → Says f args t → Says (c :: f) args (c :: t)

/-- the pieces of a text between its percent signs -/
def between : Str → List Str
  | [] => [[]]
  | c :: r => if c = 37 then [] :: between r else (between r).modifyHead (c :: ·)

/-- pieces and arguments in turn -/
def weave : List Str → List Str → Str
  | [], _ => []
  | p :: _, [] => p
  | p :: ps, a :: as => p ++ (if ps = [] then [] else a ++ weave ps as)

/-! ## Formatting -/

theorem inner_hole (f : Str) (a : Str) (args : List Str) (out : Str) : inner (37 :: f) (a :: args) out = inner f args (out ++ a) := by
  rw [inner.eq_def]; dsimp only; rw [if_pos rfl]
theorem inner_quoted (f : Str) (c : Nat) (args : List Str) (out : Str) : inner (92 :: c :: f) args out = inner f args (out ++ [c]) := by
  rw [inner.eq_def]; dsimp only; rw [if_neg (by decide), if_pos rfl]
theorem inner_plain (f : Str) (c : Nat) (h1 : c ≠ 37) (h2 : c ≠ 92) (args : List Str) (out : Str) : inner (c :: f) args out = inner f args (out ++ [c]) := by
  rw [inner.eq_def]; dsimp only; rw [if_neg h1, if_neg h2]

theorem inner_of_says {f : Str} {args : List Str} {t : Str} (h : Says f args t) : ∀ out, inner f args out = .text (out ++ t) := by
  induction h with
  | nil args => intro out; rw [inner.eq_def]; simp
  | hole a _ ih => intro out; rw [inner_hole, ih]; simp
  | quoted c _ ih => intro out; rw [inner_quoted, ih]; simp
  | plain c h1 h2 _ ih => intro out; rw [inner_plain _ _ h1 h2, ih]; simp

theorem says_of_inner : ∀ (n : Nat) (f : Str) (args : List Str) (out : Str), f.length ≤ n → ∀ u, inner f args out = .text u → ∃ t, u = out ++ t ∧ Says f args t := by
  intro n
  induction n with
  | zero =>
    intro f args out hn u h
    cases f with
    | nil => rw [inner.eq_def] at h; cases h; exact ⟨[], by simp, .nil _⟩
    | cons c r => simp at hn
  | succ n ih =>
    intro f args out hn u h
    cases f with
    | nil => rw [inner.eq_def] at h; cases h; exact ⟨[], by simp, .nil _⟩
    | cons c r =>
      simp only [List.length_cons] at hn
      by_cases h1 : c = 37
      · subst h1
        cases args with
        | nil => rw [inner.eq_def] at h; cases h
        | cons a as =>
          rw [inner_hole] at h
          obtain ⟨t, e, ht⟩ := ih r as _ (by omega) u h
          exact ⟨a ++ t, by simp [e], .hole a ht⟩
      · by_cases h2 : c = 92
        · subst h2
          cases r with
          | nil => rw [inner.eq_def] at h; cases h
          | cons d r =>
            rw [inner_quoted] at h
            simp only [List.length_cons] at hn
            obtain ⟨t, e, ht⟩ := ih r args _ (by omega) u h
            exact ⟨d :: t, by simp [e], .quoted d ht⟩
        · rw [inner_plain _ _ h1 h2] at h
          obtain ⟨t, e, ht⟩ := ih r args _ (by omega) u h
          exact ⟨c :: t, by simp [e], .plain c h1 h2 ht⟩

/-- **C84**: formatting gives a text exactly when the format says one, and then that text -/
theorem C84_formatting_gives_what_the_format_says (f : Str) (args : List Str) (t : Str) : inner f args [] = .text t ↔ Says f args t := by
  constructor
  · intro h
    obtain ⟨u, e, hu⟩ := says_of_inner f.length f args [] (by omega) t h
    simp only [List.nil_append] at e
    exact e ▸ hu
  · intro h; simpa using inner_of_says h []

/-- so a format says one text at most -/
theorem says_unique {f : Str} {args : List Str} {t u : Str} (h : Says f args t) (k : Says f args u) : t = u := by
  have a := (C84_formatting_gives_what_the_format_says f args t).2 h
  have b := (C84_formatting_gives_what_the_format_says f args u).2 k
  rw [a] at b; exact Said.text.inj b

theorem between_ne (f : Str) : between f ≠ [] := by
  induction f with
  | nil => simp [between]
  | cons c r ih =>
    unfold between
    split
    · simp
    · cases h : between r with
      | nil => exact absurd h ih
      | cons => simp

theorem between_length (f : Str) : (between f).length = f.count 37 + 1 := by
  induction f with
  | nil => simp [between]
  | cons c r ih =>
    unfold between
    split
    · rename_i h; subst h; simp [ih]
    · rename_i h; simp [ih, h]

theorem says_weave (f : Str) (hb : 92 ∉ f) : ∀ args : List Str, f.count 37 ≤ args.length → Says f args (weave (between f) args) := by
  induction f with
  | nil => intro args _; cases args <;> exact .nil _
  | cons c r ih =>
    intro args h
    have hb' : 92 ∉ r := fun k => hb (by simp [k])
    by_cases hc : c = 37
    · subst hc
      cases args with
      | nil => simp at h
      | cons a as =>
        have := Says.hole a (ih hb' as (by simpa using h))
        simpa [between, weave, between_ne] using this
    · have := Says.plain c hc (fun k => hb (by simp [k])) (ih hb' args (by simpa [List.count_cons, hc] using h))
      have e : weave (between (c :: r)) args = c :: weave (between r) args := by
        simp only [between, hc, if_false]
        cases hr : between r with
        | nil => exact absurd hr (between_ne r)
        | cons p ps => cases args <;> simp [weave]
      rw [e]; exact this

/-- **C84**: a format without backslashes and with enough arguments gives its pieces and the arguments in turn, whatever the arguments contain -/
theorem C84_arguments_are_put_between_the_pieces (f : Str) (hb : 92 ∉ f) (args : List Str) (h : f.count 37 ≤ args.length) :
    inner f args [] = .text (weave (between f) args) :=
  (C84_formatting_gives_what_the_format_says _ _ _).2 (says_weave f hb args h)

/-- and with too few arguments it throws -/
theorem C84_too_few_arguments (f : Str) (hb : 92 ∉ f) (args : List Str) (h : args.length < f.count 37) : inner f args [] = .tooFew := by
  have gen : ∀ (f : Str), 92 ∉ f → ∀ (args : List Str) out, args.length < f.count 37 → inner f args out = .tooFew := by
    intro f
    induction f with
    | nil => intro _ args out h; simp at h
    | cons c r ih =>
      intro hb args out h
      have hb' : 92 ∉ r := fun k => hb (by simp [k])
      by_cases hc : c = 37
      · subst hc
        cases args with
        | nil => rw [inner.eq_def]; rfl
        | cons a as => rw [inner_hole]; exact ih hb' as _ (by simpa using h)
      · have h92 : c ≠ 92 := fun k => hb (by simp [k])
        rw [inner.eq_def]
        dsimp only
        rw [if_neg hc, if_neg h92]
        exact ih hb' args _ (by simpa [List.count_cons, hc] using h)
  exact gen f hb args [] h

/-! ## The statements of the library -/

theorem no_zero {w : Str} (h : 0 ∉ w) : w.takeWhile (· ≠ 0) = w := by
  have := List.takeWhile_append_of_pos (p := fun x => decide (x ≠ 0)) (l₁ := w) (l₂ := []) (by
    intro x hx
    simp only [decide_eq_true_eq]
    rintro rfl; exact h hx)
  simpa using this

theorem sites_ok : ∀ s ∈ sites, (92 ∉ s.format ∧ 0 ∉ s.format) ∧ s.format.count 37 = s.args ∧ 1 ≤ s.level ∧ s.level ≤ 5 := by
  decide +kernel

/-- **C84**: every log statement of the library and the tool but one (see below), whatever its arguments are, throws nothing: with a logger it is called once with
the level of the statement and the pieces of the format with all the arguments between them (without zero bytes in the arguments), without a logger nothing
happens -/
theorem C84_the_log_statements (s : Site) (hs : s ∈ sites) (args : List Str) (ha : args.length = s.args) (hz : ∀ a ∈ args, 0 ∉ a) :
    logCall true s.level s.format args = .calls s.level (weave (between s.format) args) ∧
    (between s.format).length = args.length + 1 ∧
    logCall false s.level s.format args = .nothing := by
  obtain ⟨⟨h1, h0⟩, h2, _⟩ := sites_ok s hs
  refine ⟨?_, by rw [between_length, h2, ha], rfl⟩
  rw [logCall, if_pos rfl, C84_arguments_are_put_between_the_pieces _ h1 _ (by omega)]
  have gen : ∀ (f : Str), 0 ∉ f → ∀ args : List Str, (∀ a ∈ args, 0 ∉ a) → 0 ∉ weave (between f) args := by
    have wz : ∀ (ps args : List Str), (∀ p ∈ ps, 0 ∉ p) → (∀ a ∈ args, 0 ∉ a) → 0 ∉ weave ps args := by
      intro ps
      induction ps with
      | nil => intro args _ _; simp [weave]
      | cons p ps ih =>
        intro args hp ha
        cases args with
        | nil => simpa [weave] using hp p (by simp)
        | cons a as =>
          have := ih as (fun p hp' => hp p (by simp [hp'])) (fun a ha' => ha a (by simp [ha']))
          have h1 := hp p (by simp)
          have h2 := ha a (by simp)
          unfold weave
          split <;> simp_all
    intro f hf args ha
    refine wz _ _ ?_ ha
    clear ha args
    induction f with
    | nil => intro p hp; simp [between] at hp; simp [hp]
    | cons c r ih =>
      have := ih (fun k => hf (by simp [k]))
      unfold between
      split
      · intro p hp
        rcases List.mem_cons.1 hp with rfl | hp
        · simp
        · exact this p hp
      · cases hr : between r with
        | nil => exact absurd hr (between_ne r)
        | cons q qs =>
          rw [hr] at this
          intro p hp
          simp only [List.modifyHead_cons, List.mem_cons] at hp
          rcases hp with rfl | hp
          · intro k
            rcases List.mem_cons.1 k with k | k
            · exact hf (by simp [k])
            · exact this q (by simp) k
          · exact this p (by simp [hp])
  have hz0 := gen _ h0 _ hz
  generalize weave (between s.format) args = w at hz0
  show Effect.calls s.level (w.takeWhile _) = _
  congr 1
  exact no_zero hz0

/-- a statement with arguments that contain percent signs -/
example : ∃ s ∈ sites, s.args = 2 ∧ logCall true s.level s.format [[37, 92], [37]] = .calls s.level
    ([91, 66, 97, 115, 101, 69, 100, 105, 116, 111, 114, 93, 32, 118, 105, 115, 105, 98, 108, 101, 84, 101, 120, 116, 69, 118, 101, 110, 116, 58, 32] ++ [37, 92, 45, 37]) := by
  refine ⟨sites[2], List.getElem_mem _, by decide +kernel, by decide +kernel⟩

/-! ## The file -/

/-- the names of the levels a user can give -/
def levelNames : List (String × Nat) :=
  [("off", 0), ("error", 1), ("warning", 2), ("warn", 2), ("info", 3), ("debug", 4), ("trace", 5)]

/-- **C84**: the level named by the user; any other text means `off` -/
theorem C84_the_level_named (t : Str) :
    (∀ p ∈ levelNames, t = p.1.toList.map Char.toNat → getLogLevel t = p.2) ∧
    ((∀ p ∈ levelNames, t ≠ p.1.toList.map Char.toNat) → getLogLevel t = 0) := by
  constructor
  · intro p hp ht
    subst ht
    revert p
    decide +kernel
  · intro h
    have h0 := h ("off", 0) (by simp [levelNames])
    have h1 := h ("error", 1) (by simp [levelNames])
    have h2 := h ("warning", 2) (by simp [levelNames])
    have h3 := h ("warn", 2) (by simp [levelNames])
    have h4 := h ("info", 3) (by simp [levelNames])
    have h5 := h ("debug", 4) (by simp [levelNames])
    have h6 := h ("trace", 5) (by simp [levelNames])
    simp only [String.toList] at h0 h1 h2 h3 h4 h5 h6
    unfold getLogLevel
    have e : levelLoop t 0 6 = none := by
      simp only [levelLoop, levelText]
      rw [if_neg (by exact h0), if_neg (by exact h1), if_neg (by exact h2), if_neg (by exact h4), if_neg (by exact h5), if_neg (by exact h6)]
    rw [e]
    dsimp only
    rw [if_neg (by exact h3)]

/-- the name of a level in the file -/
def levelName (l : Nat) : String := if l = 1 then "error" else if l = 2 then "warning" else if l = 3 then "info" else if l = 4 then "debug" else "trace"

/-- a line of the file -/
def fileLine (time : Str) (l : Nat) (m : Str) : Str :=
  "[".toList.map Char.toNat ++ time ++ "] [".toList.map Char.toNat ++ (levelName l).toList.map Char.toNat ++ "] ".toList.map Char.toNat ++ m ++ [10]

/-- the lines that a history must leave: a message whose level is not above the level in force -/
def expected : Nat → List Op → Str
  | _, [] => []
  | cur, .log t l m :: r => (if l ≤ cur then fileLine t l m else []) ++ expected cur r
  | _, .setLevel l _ :: r => expected l r

/-- opening the file succeeds whenever it is tried -/
def Opens (ops : List Op) : Prop := ∀ l can, Op.setLevel l can ∈ ops → can = true

/-- messages have one of the levels error to trace -/
def Levels (ops : List Op) : Prop := ∀ t l m, Op.log t l m ∈ ops → 1 ≤ l ∧ l ≤ 5

theorem lineOf_eq (time : Str) (l : Nat) (m : Str) (h1 : 1 ≤ l) (h5 : l ≤ 5) : lineOf time l m = fileLine time l m := by
  have : levelText l = (levelName l).toList.map Char.toNat := by
    have : l = 1 ∨ l = 2 ∨ l = 3 ∨ l = 4 ∨ l = 5 := by omega
    rcases this with rfl | rfl | rfl | rfl | rfl <;> decide +kernel
  simp [lineOf, fileLine, this]

theorem run_file (ops : List Op) : ∀ s : Simple, (s.level = 0 ∨ s.isOpen = true) → Opens ops → Levels ops →
    (s.run ops).file = s.file ++ expected s.level ops := by
  induction ops with
  | nil => intro s _ _ _; simp [Simple.run, expected]
  | cons o r ih =>
    intro s hs ho hl
    have ho' : Opens r := fun l c h => ho l c (by simp [h])
    have hl' : Levels r := fun t l m h => hl t l m (by simp [h])
    show ((s.step o).run r).file = _
    cases o with
    | log t l m =>
      obtain ⟨h1, h5⟩ := hl t l m (by simp)
      show ((s.log t l m).run r).file = _
      unfold Simple.log expected
      by_cases h : l > s.level
      · rw [if_pos h, if_neg (by omega), ih s hs ho' hl']; simp
      · have hop : s.isOpen = true := hs.resolve_left (by omega)
        rw [if_neg h, if_pos hop, if_pos (by omega : l ≤ s.level)]
        have := ih { s with file := s.file ++ lineOf t l m } (.inr hop) ho' hl'
        rw [this, lineOf_eq _ _ _ h1 h5]
        simp
    | setLevel l can =>
      have hc : can = true := ho l can (by simp)
      subst hc
      show ((s.setLevel l true).1.run r).file = _
      obtain ⟨op, lv, fl⟩ := s
      unfold Simple.setLevel openFile expected
      by_cases h0 : lv = 0
      · subst h0
        by_cases hl0 : l = 0
        · subst hl0
          simp only [if_true, true_or]
          rw [ih _ (.inl rfl) ho' hl']
        · cases op
          · simp only [if_true, hl0, Bool.false_eq_true, or_self, if_false]
            rw [ih _ (.inr rfl) ho' hl']
          · simp only [if_true, or_true]
            rw [ih _ (.inr rfl) ho' hl']
      · simp only [h0, if_false]
        exact ih ⟨op, l, fl⟩ (.inr (hs.resolve_left h0)) ho' hl'

/-- **C84**: whatever the history of messages and changes of the level, if the file can be opened, it keeps its old text and gets one line for every message
whose level is not above the level in force, in order, and nothing else -/
theorem C84_the_file_has_the_messages_asked_for (old : Str) (level : Nat) (ops : List Op) (ho : Opens ops) (hl : Levels ops) :
    ∃ s, Simple.new old level true = (s, false) ∧ (s.run ops).file = old ++ expected level ops := by
  unfold Simple.new openFile
  by_cases h : level = 0
  · subst h
    exact ⟨⟨false, 0, old⟩, by simp, run_file ops _ (.inl rfl) ho hl⟩
  · exact ⟨⟨true, level, old⟩, by simp [h], run_file ops _ (.inr rfl) ho hl⟩

/-- a history: off, then on, a message above the level, one below -/
example : Opens [.log [49] 1 [65], .setLevel 2 true, .log [50] 4 [66], .log [51] 2 [67]] ∧
    Levels [.log [49] 1 [65], .setLevel 2 true, .log [50] 4 [66], .log [51] 2 [67]] ∧
    expected 0 [.log [49] 1 [65], .setLevel 2 true, .log [50] 4 [66], .log [51] 2 [67]] = "[3] [warning] C\n".toList.map Char.toNat := by
  refine ⟨?_, ?_, by decide +kernel⟩
  · intro l c h; simp at h; simp [h]
  · intro t l m h; simp at h; omega

/-- **C84** fails when the file could not be opened once: the level stays switched on, and whatever is logged afterwards, even when the file could be opened
now and the level is set again, is lost, until someone sets the level to `off` -/
theorem C84_violated_lost_after_a_failure (old : Str) (level : Nat) (hlv : level ≠ 0) (ops : List Op) (h : ∀ can, Op.setLevel 0 can ∉ ops) :
    ∃ s, (Simple.mk false 0 old).setLevel level false = (s, true) ∧ (s.run ops).file = old := by
  refine ⟨⟨false, level, old⟩, by simp [Simple.setLevel, openFile, hlv], ?_⟩
  have gen : ∀ (ops : List Op) (lv : Nat), lv ≠ 0 → (∀ can, Op.setLevel 0 can ∉ ops) → ((Simple.mk false lv old).run ops).file = old := by
    intro ops
    induction ops with
    | nil => intro lv _ _; rfl
    | cons o r ih =>
      intro lv hlv h
      show (((Simple.mk false lv old).step o).run r).file = old
      have h' : ∀ can, Op.setLevel 0 can ∉ r := fun c k => h c (by simp [k])
      cases o with
      | log t l m =>
        have e : (Simple.mk false lv old).step (.log t l m) = ⟨false, lv, old⟩ := by simp [Simple.step, Simple.log]
        rw [e]; exact ih lv hlv h'
      | setLevel l can =>
        have hl0 : l ≠ 0 := by rintro rfl; exact h can (by simp)
        have e : (Simple.mk false lv old).step (.setLevel l can) = ⟨false, l, old⟩ := by simp [Simple.step, Simple.setLevel, hlv]
        rw [e]; exact ih l hl0 h'
  exact gen ops level hlv h

/-- such a history: the file can be opened again, the level is raised, an error is logged -/
example : (∀ can, Op.setLevel 0 can ∉ [Op.setLevel 3 true, .log [49] 1 [65]]) := by intro c; simp

/-! ## The tool -/

/-- the calls come from the statements, with as many arguments as they have -/
def FromSites (calls : List Stmt) : Prop :=
  ∀ c ∈ calls, ∃ s ∈ sites, c.level = s.level ∧ c.fmt = s.format ∧ c.args.length = s.args ∧ ∀ a ∈ c.args, 0 ∉ a

/-- what is in the file after the calls -/
def said (level : Nat) (calls : List Stmt) : Str :=
  calls.flatMap fun c => if c.level ≤ level then fileLine c.time c.level (weave (between c.fmt) c.args) else []

theorem doLogs_ok (calls : List Stmt) : ∀ s : Simple, s.isOpen = true → FromSites calls →
    ∃ s', doLogs true s calls = some s' ∧ s'.isOpen = true ∧ s'.level = s.level ∧ s'.file = s.file ++ said s.level calls := by
  induction calls with
  | nil => intro s h _; exact ⟨s, rfl, h, rfl, by simp [said]⟩
  | cons c r ih =>
    intro s h hf
    obtain ⟨si, hs, e1, e2, e3, e4⟩ := hf c (by simp)
    obtain ⟨k, _, _⟩ := C84_the_log_statements si hs c.args e3 e4
    obtain ⟨_, _, b1, b5⟩ := sites_ok si hs
    have hf' : FromSites r := fun c hc => hf c (by simp [hc])
    rw [← e1, ← e2] at k
    rw [← e1] at b1 b5
    unfold doLogs
    rw [k]
    dsimp only
    by_cases hl : c.level ≤ s.level
    · have e : s.log c.time c.level (weave (between c.fmt) c.args) = { s with file := s.file ++ fileLine c.time c.level (weave (between c.fmt) c.args) } := by
        rw [Simple.log, if_neg (by omega), if_pos h, lineOf_eq _ _ _ b1 b5]
      rw [e]
      obtain ⟨s', h1, h2, h3, h4⟩ := ih { s with file := s.file ++ fileLine c.time c.level (weave (between c.fmt) c.args) } h hf'
      refine ⟨s', h1, h2, h3, ?_⟩
      rw [h4]
      simp [said, hl]
    · have e : s.log c.time c.level (weave (between c.fmt) c.args) = s := by rw [Simple.log, if_pos (by omega)]
      rw [e]
      obtain ⟨s', h1, h2, h3, h4⟩ := ih s h hf'
      refine ⟨s', h1, h2, h3, ?_⟩
      rw [h4]
      simp [said, hl]

theorem doLogs_off (calls : List Stmt) : ∀ s : Simple, doLogs false s calls = some s := by
  induction calls with
  | nil => intro s; rfl
  | cons c r ih => intro s; simp [doLogs, logCall, ih]

theorem plain_says (w : Str) (h1 : 37 ∉ w) (h2 : 92 ∉ w) : Says w [] w := by
  induction w with
  | nil => exact .nil _
  | cons c r ih =>
    exact .plain c (fun k => h1 (by simp [k])) (fun k => h2 (by simp [k])) (ih (fun k => h1 (by simp [k])) (fun k => h2 (by simp [k])))

/-- **C84**, for the tool, with a level above `off` and a log file that can be opened: the file gets the messages of the job up to that level, in order; the tool
returns 0, or, after an exception whose text has no percent sign and no backslash, logs that text as an error, writes it to stderr and returns -1 -/
theorem C84_the_tool_partial (levelOpt old : Str) (hl : getLogLevel levelOpt ≠ 0) (calls : List Stmt) (hc : FromSites calls) (time : Str) :
    main levelOpt old true calls time none = ⟨.returns 0, old ++ said (getLogLevel levelOpt) calls, []⟩ ∧
    ∀ what : Str, 37 ∉ what → 92 ∉ what → 0 ∉ what →
      main levelOpt old true calls time (some what) =
        ⟨.returns (-1), old ++ said (getLogLevel levelOpt) calls ++ fileLine time 1 what, what⟩ := by
  have e : Simple.new old (getLogLevel levelOpt) true = (⟨true, getLogLevel levelOpt, old⟩, false) := by
    simp [Simple.new, openFile, hl]
  obtain ⟨s', h1, h2, h3, h4⟩ := doLogs_ok calls ⟨true, getLogLevel levelOpt, old⟩ rfl hc
  constructor
  · unfold main
    rw [if_pos hl, e]
    dsimp only
    rw [h1]
    simp [ending, h4]
  · intro what p1 p2 p0
    unfold main
    rw [if_pos hl, e]
    dsimp only
    rw [h1]
    have k : logCall true 1 what [] = .calls 1 what := by
      rw [logCall, if_pos rfl, (C84_formatting_gives_what_the_format_says _ _ _).2 (plain_says what p1 p2)]
      show Effect.calls 1 (what.takeWhile _) = _
      congr 1
      exact no_zero p0
    simp only [ending, k]
    rw [Simple.log, if_neg (by rw [h3]; show ¬ 1 > getLogLevel levelOpt; omega), if_pos h2, lineOf_eq _ _ _ (by omega) (by omega), h4]

/-- **C84**: with the level `off` (or no level, or an unknown one) the log file is not touched and every exception is reported, whatever its text -/
theorem C84_the_tool_without_a_log (levelOpt old : Str) (hl : getLogLevel levelOpt = 0) (can : Bool) (calls : List Stmt) (time : Str) :
    main levelOpt old can calls time none = ⟨.returns 0, old, []⟩ ∧
    ∀ what, main levelOpt old can calls time (some what) = ⟨.returns (-1), old, what⟩ := by
  constructor
  · simp [main, hl, doLogs_off, ending]
  · intro what; simp [main, hl, doLogs_off, ending, logCall]

/-- **C84** fails for an exception whose text is no format without arguments, for example one that contains a percent sign with no backslash before it: the
text is used as a format, so formatting throws out of the handler and the program is terminated without a message. Exactly then. -/
theorem C84_violated_exception_text_is_a_format (levelOpt old : Str) (hl : getLogLevel levelOpt ≠ 0) (calls : List Stmt) (hc : FromSites calls) (time what : Str) :
    (main levelOpt old true calls time (some what)).exit = .terminates ↔ ¬ ∃ t, Says what [] t := by
  have e : Simple.new old (getLogLevel levelOpt) true = (⟨true, getLogLevel levelOpt, old⟩, false) := by
    simp [Simple.new, openFile, hl]
  obtain ⟨s', h1, h2, h3, h4⟩ := doLogs_ok calls ⟨true, getLogLevel levelOpt, old⟩ rfl hc
  unfold main
  rw [if_pos hl, e]
  dsimp only
  rw [h1]
  simp only [ending, logCall, if_true]
  cases hi : inner what [] [] with
  | text t =>
    have := (C84_formatting_gives_what_the_format_says what [] t).1 hi
    simp only [reduceCtorEq, false_iff]
    exact fun k => k ⟨t, this⟩
  | tooFew =>
    simp only [true_iff]
    rintro ⟨t, k⟩
    rw [(C84_formatting_gives_what_the_format_says what [] t).2 k] at hi
    exact absurd hi (by simp)
  | stray =>
    simp only [true_iff]
    rintro ⟨t, k⟩
    rw [(C84_formatting_gives_what_the_format_says what [] t).2 k] at hi
    exact absurd hi (by simp)

/-- a text with a percent sign and no backslash before it is no format without arguments -/
theorem percent_says_nothing (pre post : Str) (h : 92 ∉ pre) : ¬ ∃ t, Says (pre ++ 37 :: post) [] t := by
  rintro ⟨t, k⟩
  induction pre generalizing t with
  | nil => cases k with
    | plain c h1 => exact h1 rfl
  | cons c r ih =>
    have h92 : c ≠ 92 := fun k => h (by simp [k])
    rw [List.cons_append] at k
    generalize hargs : ([] : List Str) = args at k
    generalize r ++ 37 :: post = f at k ih
    cases k with
    | hole => cases hargs
    | quoted => exact h92 rfl
    | plain _ _ _ k => subst hargs; exact ih (fun k => h (by simp [k])) _ k

/-- the colour scheme asked for on the command line is in the text of the exception "can't find HRDName '...'" (ParserFactoryImpl.cpp:120): a `%` in it
terminates the tool -/
theorem C84_violated_percent_in_a_name (levelOpt old : Str) (hl : getLogLevel levelOpt ≠ 0) (calls : List Stmt) (hc : FromSites calls) (time a b : Str) (ha : 92 ∉ a) :
    (main levelOpt old true calls time (some ("can't find HRDName '".toList.map Char.toNat ++ (a ++ 37 :: b) ++ "'".toList.map Char.toNat))).exit = .terminates := by
  refine (C84_violated_exception_text_is_a_format levelOpt old hl calls hc time _).2 ?_
  have := percent_says_nothing ("can't find HRDName '".toList.map Char.toNat ++ a) (b ++ "'".toList.map Char.toNat) (by
    intro k
    rcases List.mem_append.1 k with k | k
    · revert k; decide
    · exact ha k)
  simpa using this

/-- **C84** fails for a text with backslashes: they are missing in the log -/
theorem C84_violated_backslash_is_lost :
    (main ("error".toList.map Char.toNat) [] true [] [49] (some ("C:\\x".toList.map Char.toNat))).file = "[1] [error] C:x\n".toList.map Char.toNat := by
  decide +kernel

/-- a log file that cannot be opened terminates the tool before its work -/
theorem C84_violated_no_log_file (levelOpt old : Str) (hl : getLogLevel levelOpt ≠ 0) (calls : List Stmt) (time : Str) (what : Option Str) :
    main levelOpt old false calls time what = ⟨.terminates, old, []⟩ := by
  simp [main, hl, Simple.new, openFile]

/-- a job with one warning -/
example : getLogLevel ("warn".toList.map Char.toNat) ≠ 0 ∧
    FromSites [⟨[49], 2, "Duplicate prototype '%'. First version unloaded, current is loading.".toList.map Char.toNat, [[97, 37]]⟩] := by
  refine ⟨by decide +kernel, ?_⟩
  intro c hc
  simp only [List.mem_singleton] at hc
  subst hc
  have : ∃ s ∈ sites, s.level = 2 ∧ s.format = "Duplicate prototype '%'. First version unloaded, current is loading.".toList.map Char.toNat ∧ s.args = 1 := by decide +kernel
  obtain ⟨s, h, h1, h2, h3⟩ := this
  exact ⟨s, h, h1.symm, h2.symm, h3.symm, by simp⟩

end Verif.Logging
