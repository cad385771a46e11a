import Verif.Viewer.Spec
import Verif.Strings.Props
/-!
# C07 (text is split into lines without loss), C06 (writers reproduce the text), C48, C49
-/
namespace Verif.Viewer
open Verif.Strings (Str)

/-! ## C07 -/

/-- helper: put `cur` in front of the first line -/
def addHead (cur : Str) : List (Str × Term) → Str → List (Str × Term) × Str
  | [], last => ([], cur ++ last)
  | (l, t) :: r, last => ((cur ++ l, t) :: r, last)

/-- helper: the division of a text -/
def divide : Str → List (Str × Term) × Str
  | [] => ([], [])
  | c :: r =>
    if c = 13 then
      match r with
      | [] => ([([], .cr)], [])
      | d :: r' => if d = 10 then (([], .crlf) :: (divide r').1, (divide r').2)
                   else (([], .cr) :: (divide (d :: r')).1, (divide (d :: r')).2)
    else if c = 10 then (([], .lf) :: (divide r).1, (divide r).2)
    else addHead [c] (divide r).1 (divide r).2
termination_by s => s.length

theorem joinLines_addHead (cur : Str) (ps : List (Str × Term)) (last : Str) :
    joinLines (addHead cur ps last).1 (addHead cur ps last).2 = cur ++ joinLines ps last := by
  cases ps with
  | nil => rfl
  | cons p r => simp [addHead, joinLines]

theorem division_addHead (c : Nat) (hc : c ≠ 13 ∧ c ≠ 10) (ps : List (Str × Term)) (last : Str) (h : Division ps last) :
    Division (addHead [c] ps last).1 (addHead [c] ps last).2 := by
  cases ps with
  | nil =>
    simp only [addHead, Division, Plain] at *
    intro d hd
    simp only [List.cons_append, List.nil_append, List.mem_cons] at hd
    rcases hd with rfl | hd
    · exact hc
    · exact h d hd
  | cons p r =>
    obtain ⟨l, t⟩ := p
    simp only [addHead, Division, Plain] at *
    refine ⟨?_, h.2⟩
    intro d hd
    simp only [List.cons_append, List.nil_append, List.mem_cons] at hd
    rcases hd with rfl | hd
    · exact hc
    · exact h.1 d hd

theorem divide_ok (s : Str) : joinLines (divide s).1 (divide s).2 = s ∧ Division (divide s).1 (divide s).2 := by
  induction s using divide.induct with
  | case1 => simp [divide, joinLines, Division, Plain]
  | case2 => simp [divide, joinLines, Division, Plain, Term.chars]
  | case3 r' ih => simp [divide, joinLines, Division, Plain, Term.chars, ih]
  | case4 d r' hd ih =>
    have he : divide (13 :: d :: r') = (([], .cr) :: (divide (d :: r')).1, (divide (d :: r')).2) := by
      rw [divide.eq_def]
      simp [hd]
    rw [he]
    simp only [joinLines, Division, Term.chars, ih, List.nil_append]
    refine ⟨rfl, by simp [Plain], by simp [hd], trivial⟩
  | case5 r hc ih =>
    have he : divide (10 :: r) = (([], .lf) :: (divide r).1, (divide r).2) := by
      rw [divide.eq_def]
      simp
    rw [he]
    simp [joinLines, Division, Term.chars, ih, Plain]
  | case6 c r hc1 hc2 ih =>
    have he : divide (c :: r) = addHead [c] (divide r).1 (divide r).2 := by
      rw [divide.eq_def]
      simp [hc1, hc2]
    rw [he, joinLines_addHead, ih.1]
    exact ⟨rfl, division_addHead c ⟨hc1, hc2⟩ _ _ ih.2⟩

theorem addHead_addHead (a b : Str) (x : List (Str × Term) × Str) :
    addHead a (addHead b x.1 x.2).1 (addHead b x.1 x.2).2 = addHead (a ++ b) x.1 x.2 := by
  obtain ⟨ps, last⟩ := x
  cases ps with
  | nil => simp [addHead]
  | cons p r => simp [addHead]

theorem replaceAll_tab (l : Str) : Strings.replaceAll [9] [32, 32, 32, 32] l = expandTabs l := by
  induction l with
  | nil => simp [Strings.replaceAll, expandTabs]
  | cons c r ih =>
    unfold Strings.replaceAll
    by_cases h : c = 9
    · subst h; simp [ih, expandTabs]
    · have : ¬ (9 = c) := fun e => h e.symm
      simp [ih, expandTabs, h, this]

theorem tabs_ok (tabs : Bool) (line : Str) :
    (if tabs then replaceTabs line else some line) = some (if tabs then expandTabs line else line) := by
  cases tabs with
  | false => rfl
  | true =>
    simp only [if_true]
    rw [replaceTabs, Strings.C39_findAndReplace _ _ _ (by simp), replaceAll_tab]

theorem loadLoop_ok (file : Str) (tabs : Bool) (n : Nat) :
    ∀ (fuel filepos prevpos : Nat) (lines : List Str), file.length - filepos = n → prevpos ≤ filepos → filepos ≤ file.length →
      n + 2 ≤ fuel →
      loadLoop file tabs fuel filepos prevpos lines =
        some (lines ++ shownLines tabs
          (addHead ((file.drop prevpos).take (filepos - prevpos)) (divide (file.drop filepos)).1 (divide (file.drop filepos)).2).1
          (addHead ((file.drop prevpos).take (filepos - prevpos)) (divide (file.drop filepos)).1 (divide (file.drop filepos)).2).2) := by
  induction n using Nat.strongRecOn with
  | ind n ih =>
    intro fuel filepos prevpos lines hn hp hf hfuel
    obtain ⟨fuel, rfl⟩ : ∃ k, fuel = k + 1 := ⟨fuel - 1, by omega⟩
    rw [loadLoop, if_pos (by omega)]
    by_cases hend : filepos = file.length
    · have h0 : file.drop filepos = [] := by rw [hend]; simp
      have hl : lineAt file filepos prevpos = some ((file.drop prevpos).take (filepos - prevpos), filepos) := by
        unfold lineAt skipLF
        rw [if_pos (Or.inl hend), if_neg (by omega)]
      rw [hl, h0]
      simp only [tabs_ok]
      obtain ⟨fuel, rfl⟩ : ∃ k, fuel = k + 1 := ⟨fuel - 1, by omega⟩
      rw [loadLoop, if_neg (by omega)]
      simp [divide, addHead, shownLines]
    · have hlt : filepos < file.length := by omega
      have hdrop : file.drop filepos = file[filepos] :: file.drop (filepos + 1) := List.drop_eq_getElem_cons hlt
      have hget : file[filepos]? = some file[filepos] := List.getElem?_eq_getElem hlt
      generalize hc : file[filepos] = c at hdrop hget
      by_cases h13 : c = 13
      · subst h13
        by_cases hlf : filepos + 1 < file.length ∧ file[filepos + 1]? = some 10
        · -- CRLF
          have hl : lineAt file filepos prevpos = some ((file.drop prevpos).take (filepos - prevpos), filepos + 1) := by
            unfold lineAt skipLF
            rw [if_pos (by simp [hget, CR]), if_pos ⟨hlf.1, hget, hlf.2⟩]
          rw [hl]
          simp only [tabs_ok]
          rw [ih (file.length - (filepos + 1 + 1)) (by omega) fuel _ _ _ rfl (by omega) (by omega) (by omega)]
          have hd2 : file.drop (filepos + 1) = 10 :: file.drop (filepos + 1 + 1) := by
            rw [List.drop_eq_getElem_cons hlf.1]
            have := hlf.2
            rw [List.getElem?_eq_getElem hlf.1] at this
            simp only [Option.some.injEq] at this
            rw [this]
          rw [hdrop, hd2]
          have he : divide (13 :: 10 :: file.drop (filepos + 1 + 1)) =
              (([], .crlf) :: (divide (file.drop (filepos + 1 + 1))).1, (divide (file.drop (filepos + 1 + 1))).2) := by
            rw [divide.eq_def]
            simp
          rw [he]
          generalize divide (file.drop (filepos + 1 + 1)) = d
          obtain ⟨ps, last⟩ := d
          cases ps with
          | nil => simp [addHead, shownLines]
          | cons p r => simp [addHead, shownLines]
        · -- CR alone
          have hl : lineAt file filepos prevpos = some ((file.drop prevpos).take (filepos - prevpos), filepos) := by
            unfold lineAt skipLF
            rw [if_pos (by simp [hget, CR]), if_neg]
            intro hx
            exact hlf ⟨hx.1, by simpa [LF] using hx.2.2⟩
          rw [hl]
          simp only [tabs_ok]
          rw [ih (file.length - (filepos + 1)) (by omega) fuel _ _ _ rfl (by omega) (by omega) (by omega)]
          rw [hdrop]
          have he : divide (13 :: file.drop (filepos + 1)) =
              (([], .cr) :: (divide (file.drop (filepos + 1))).1, (divide (file.drop (filepos + 1))).2) := by
            rw [divide.eq_def]
            simp only [if_true]
            cases hx : file.drop (filepos + 1) with
            | nil => simp [divide]
            | cons e r' =>
              have hl' : filepos + 1 < file.length := by
                have := congrArg List.length hx
                simp at this; omega
              have h2 : file[filepos + 1]? = some e := by
                have h3 := List.drop_eq_getElem_cons hl'
                rw [hx] at h3
                simp only [List.cons.injEq] at h3
                rw [List.getElem?_eq_getElem hl', ← h3.1]
              have : e ≠ 10 := by
                intro e10
                exact hlf ⟨hl', by rw [h2, e10]⟩
              simp [this]
          rw [he]
          generalize divide (file.drop (filepos + 1)) = d
          obtain ⟨ps, last⟩ := d
          cases ps with
          | nil => simp [addHead, shownLines]
          | cons p r => simp [addHead, shownLines]
      · by_cases h10 : c = 10
        · subst h10
          have hl : lineAt file filepos prevpos = some ((file.drop prevpos).take (filepos - prevpos), filepos) := by
            unfold lineAt skipLF
            rw [if_pos (by simp [hget, LF]), if_neg]
            simp [hget, CR]
          rw [hl]
          simp only [tabs_ok]
          rw [ih (file.length - (filepos + 1)) (by omega) fuel _ _ _ rfl (by omega) (by omega) (by omega)]
          rw [hdrop]
          have he : divide (10 :: file.drop (filepos + 1)) =
              (([], .lf) :: (divide (file.drop (filepos + 1))).1, (divide (file.drop (filepos + 1))).2) := by
            rw [divide.eq_def]
            simp
          rw [he]
          generalize divide (file.drop (filepos + 1)) = d
          obtain ⟨ps, last⟩ := d
          cases ps with
          | nil => simp [addHead, shownLines]
          | cons p r => simp [addHead, shownLines]
        · have hl : lineAt file filepos prevpos = none := by
            unfold lineAt
            rw [if_neg]
            simp [hget, hend, CR, LF, h13, h10]
          rw [hl]
          simp only
          rw [ih (file.length - (filepos + 1)) (by omega) fuel _ _ _ rfl (by omega) (by omega) (by omega)]
          rw [hdrop]
          have he : divide (c :: file.drop (filepos + 1)) =
              addHead [c] (divide (file.drop (filepos + 1))).1 (divide (file.drop (filepos + 1))).2 := by
            rw [divide.eq_def]
            simp [h13, h10]
          rw [he, addHead_addHead]
          have ht : (file.drop prevpos).take (filepos + 1 - prevpos) = (file.drop prevpos).take (filepos - prevpos) ++ [c] := by
            have e1 : filepos + 1 - prevpos = (filepos - prevpos) + 1 := by omega
            rw [e1, List.take_add_one]
            congr 1
            rw [List.getElem?_drop]
            have : prevpos + (filepos - prevpos) = filepos := by omega
            rw [this, hget]
            rfl
          rw [ht]

/-- the content of a source that can be opened -/
def Source.content : Source → Option Str
  | .stdin c => some c
  | .file _ c => c

/-- the name of a source -/
def Source.name : Source → Option Str
  | .stdin _ => none
  | .file n _ => some n

theorem fill_ok (st : TextStore) (file : Str) (tabs : Bool) :
    st.fill file tabs = .done { st with lines := st.lines ++ shownLines tabs (divide file).1 (divide file).2 } := by
  unfold TextStore.fill
  rw [loadLoop_ok file tabs file.length (file.length + 2) 0 0 st.lines (by omega) (by omega) (by omega) (by omega)]
  have : addHead [] (divide file).1 (divide file).2 = divide file := by
    generalize divide file = d
    obtain ⟨ps, last⟩ := d
    cases ps with
    | nil => rfl
    | cons p r => rfl
  simp [this]

/-- C07: loading a text (into a fresh object, or one that holds a named file) divides it: the lines shown are exactly those of
a division of the text, one more than there are terminators, and the text is the lines with their terminators. -/
theorem C07_load_divides_the_text (st : TextStore) (src : Source) (tabs : Bool) (text : Str) (hsrc : src.content = some text)
    (hst : st.lines = [] ∨ st.fileName.isSome) :
    ∃ ps last, st.load src tabs = .done ⟨shownLines tabs ps last, (src.name).or (if st.fileName.isSome then none else st.fileName)⟩ ∧
      Division ps last ∧ joinLines ps last = text ∧ (shownLines tabs ps last).length = ps.length + 1 := by
  refine ⟨(divide text).1, (divide text).2, ?_, (divide_ok text).2, (divide_ok text).1, by simp [shownLines]⟩
  have hl : (if st.fileName.isSome then st.freeFile else st).lines = [] := by
    split
    · rfl
    · rcases hst with h | h
      · exact h
      · contradiction
  have hn : (if st.fileName.isSome then st.freeFile else st).fileName = none := by
    split
    · rfl
    · rename_i h; simpa using h
  cases src with
  | stdin c =>
    simp only [Source.content, Option.some.injEq] at hsrc
    subst hsrc
    unfold TextStore.load
    simp only [fill_ok, hl, List.nil_append, Source.name, hn]
    cases st.fileName <;> simp
  | file n c =>
    simp only [Source.content] at hsrc
    subst hsrc
    unfold TextStore.load
    simp only [fill_ok, hl, List.nil_append, Source.name]
    simp

theorem plain_split {a b x y : Str} (ha : Plain a) (hb : Plain b)
    (hx : x = [] ∨ ∃ c r, x = c :: r ∧ (c = 13 ∨ c = 10)) (hy : y = [] ∨ ∃ c r, y = c :: r ∧ (c = 13 ∨ c = 10))
    (h : a ++ x = b ++ y) : a = b ∧ x = y := by
  induction a generalizing b with
  | nil =>
    cases b with
    | nil => exact ⟨rfl, h⟩
    | cons d r =>
      simp only [List.nil_append, List.cons_append] at h
      rcases hx with hx | ⟨c, r', hx, hc⟩
      · rw [hx] at h; simp at h
      · rw [hx] at h
        simp only [List.cons.injEq] at h
        have := hb d (by simp)
        omega
  | cons c a ih =>
    cases b with
    | nil =>
      simp only [List.nil_append, List.cons_append] at h
      rcases hy with hy | ⟨d, r', hy, hd⟩
      · rw [hy] at h; simp at h
      · rw [hy] at h
        simp only [List.cons.injEq] at h
        have := ha c (by simp)
        omega
    | cons d b =>
      simp only [List.cons_append, List.cons.injEq] at h
      obtain ⟨e1, e2⟩ := ih (fun z hz => ha z (by simp [hz])) (b := b) (fun z hz => hb z (by simp [hz])) h.2
      exact ⟨by rw [h.1, e1], e2⟩

theorem term_split {t u : Term} {x y : Str} (ht : t = .cr → x.head? ≠ some 10) (hu : u = .cr → y.head? ≠ some 10)
    (h : t.chars ++ x = u.chars ++ y) : t = u ∧ x = y := by
  cases t <;> cases u <;> simp [Term.chars] at h ⊢ <;> first | exact h | skip
  · exact ht rfl (by rw [h]; rfl)
  · exact hu rfl (by rw [← h]; rfl)

/-- C07: a text has only one division, so the lines shown are determined by the text. -/
theorem C07_division_unique (ps ps' : List (Str × Term)) (last last' : Str) (h : Division ps last) (h' : Division ps' last')
    (he : joinLines ps last = joinLines ps' last') : ps = ps' ∧ last = last' := by
  induction ps generalizing ps' with
  | nil =>
    cases ps' with
    | nil => exact ⟨rfl, he⟩
    | cons p r =>
      obtain ⟨l, t⟩ := p
      simp only [joinLines, Division, List.append_assoc] at *
      have := plain_split h h'.1 (x := []) (Or.inl rfl) (y := t.chars ++ joinLines r last')
        (Or.inr (by cases t <;> exact ⟨_, _, rfl, by simp⟩)) (by simpa using he)
      have h2 := congrArg List.length this.2
      cases t <;> simp [Term.chars] at h2
  | cons p r ih =>
    obtain ⟨l, t⟩ := p
    cases ps' with
    | nil =>
      simp only [joinLines, Division, List.append_assoc] at *
      have := plain_split h.1 h' (y := []) (x := t.chars ++ joinLines r last)
        (Or.inr (by cases t <;> exact ⟨_, _, rfl, by simp⟩)) (Or.inl rfl) (by simpa using he)
      have h2 := congrArg List.length this.2
      cases t <;> simp [Term.chars] at h2
    | cons p' r' =>
      obtain ⟨l', t'⟩ := p'
      simp only [joinLines, Division, List.append_assoc] at *
      obtain ⟨e1, e2⟩ := plain_split h.1 h'.1 (x := t.chars ++ joinLines r last) (y := t'.chars ++ joinLines r' last')
        (Or.inr (by cases t <;> exact ⟨_, _, rfl, by simp⟩)) (Or.inr (by cases t' <;> exact ⟨_, _, rfl, by simp⟩)) he
      obtain ⟨e3, e4⟩ := term_split h.2.1 h'.2.1 e2
      obtain ⟨e5, e6⟩ := ih r' h.2.2 h'.2.2 e4
      exact ⟨by rw [e1, e3, e5], e6⟩

/-- C07: a line number below the count gives that line, any other gives null; every loaded text has at least one line. -/
theorem C07_getLine (st : TextStore) (lno : Nat) :
    (lno < st.getLineCount → ∃ h : lno < st.lines.length, st.getLine lno = some st.lines[lno]) ∧
    (st.getLineCount ≤ lno → st.getLine lno = none) := by
  unfold TextStore.getLine TextStore.getLineCount
  constructor
  · intro h
    exact ⟨h, by rw [if_neg (by omega), List.getElem?_eq_getElem h]⟩
  · intro h
    rw [if_pos h]

/-- C07: a file that cannot be opened leaves an empty store. -/
theorem C07_failed_load_is_empty (st : TextStore) (name : Str) (tabs : Bool) (hst : st.lines = [] ∨ st.fileName.isSome) :
    st.load (.file name none) tabs = .threw ⟨[], some name⟩ := by
  unfold TextStore.load
  simp only
  rcases hst with h | h
  · split
    · rfl
    · rw [show st = ⟨st.lines, st.fileName⟩ from rfl, h]
  · rw [if_pos h]; rfl

/-- C07, false after the standard input was loaded: a second load appends to the lines already there. -/
theorem C07_violated_load_after_stdin :
    ∃ st, TextStore.init.load (.stdin [97]) false = .done st ∧
      st.load (.file [102] (some [98])) false = .done ⟨[[97], [98]], some [102]⟩ := ⟨⟨[[97]], none⟩, by decide, by decide⟩

/-- non-vacuity: "a\r\n\tb\r" -/
example : TextStore.init.load (.file [102] (some [97, 13, 10, 9, 98, 13])) true =
    .done ⟨[[97], [32, 32, 32, 32, 98], []], some [102]⟩ := by decide +kernel
example : Division [([97], .crlf), ([9, 98], .cr)] [] ∧ joinLines [([97], .crlf), ([9, 98], .cr)] [] = [97, 13, 10, 9, 98, 13] := by
  simp [Division, Plain, joinLines, Term.chars]

/-! ## C06 -/

theorem writeSlice_ok (line : Str) (a n : Int) (ha : 0 ≤ a) (hn : a + n ≤ line.length) :
    writeSlice line a n = .ok (chars line a (a + n)) := by
  unfold writeSlice chars
  have e : (a + n - a).toNat = n.toNat := by omega
  rw [e]
  by_cases h0 : n ≤ 0
  · have : n.toNat = 0 := by omega
    simp [this, pure, Except.pure]
  have hlen : a.toNat + n.toNat ≤ line.length := by omega
  have hm : ∀ m, m ≤ n.toNat → (List.range m).mapM (fun (i : Nat) => charAt line (a + i)) =
      .ok (((line.drop a.toNat).take m).map Out.ch) := by
    intro m
    induction m with
    | zero => intro _; simp [pure, Except.pure]
    | succ m ih =>
      intro hm
      rw [List.range_succ, List.mapM_append, ih (by omega)]
      have hi : (a + (m : Int)).toNat = a.toNat + m := by omega
      have hlt : a.toNat + m < line.length := by omega
      simp only [List.mapM_cons, List.mapM_nil, bind, Except.bind, pure, Except.pure]
      have hc : charAt line (a + (m : Int)) = .ok (Out.ch line[a.toNat + m]) := by
        unfold charAt
        rw [if_pos (by omega), hi, List.getElem?_eq_getElem hlt]
      rw [hc]
      simp only [Except.ok.injEq]
      rw [List.take_add_one, List.getElem?_drop, List.getElem?_eq_getElem hlt]
      simp
  exact hm n.toNat (Nat.le_refl _)

theorem writeLoop_ok (line : Str) (skip : Reg → Bool) (before after : Reg → Int → Int → Except Err (List Out))
    (opening closing : Reg → List Out) (regs : List Reg)
    (hb : ∀ r ∈ regs, r.special = false → skip r = false → r.start ≠ r.stop →
      before r r.start (stopOf line r - r.start) = .ok (opening r) ∧ after r r.start (stopOf line r - r.start) = .ok (closing r)) :
    ∀ pos, InOrder line (fun r => !(r.special || skip r)) pos regs →
      writeLoop line skip before after regs pos =
        .ok (render line (fun r => !(r.special || skip r)) opening closing pos regs) := by
  induction regs with
  | nil =>
    intro pos h
    simp only [InOrder] at h
    rw [writeLoop, render]
    split
    · rw [writeSlice_ok _ _ _ h.1 (by omega)]
      congr 2
      omega
    · have : pos = line.length := by omega
      subst this
      simp [chars]
  | cons r rs ih =>
    intro pos h
    have ih' := ih (fun r' hr' => hb r' (by simp [hr']))
    rw [writeLoop, render]
    rw [InOrder] at h
    by_cases h1 : (r.special || skip r) = true
    · rw [if_neg (fun hx => by simp [h1] at hx)] at h
      rw [if_pos h1, if_neg (fun hx => by simp [h1] at hx)]
      exact ih' pos h
    · by_cases h2 : r.start = r.stop
      · rw [if_neg (fun hx => hx.2 h2)] at h
        rw [if_neg h1, if_pos h2, if_neg (fun hx => hx.2 h2)]
        exact ih' pos h
      · simp only [Bool.not_eq_true] at h1
        rw [if_pos (by simp [h1, h2])] at h
        rw [if_neg (by simp [h1]), if_neg h2, if_pos (by simp [h1, h2])]
        obtain ⟨p0, p1, p2, p3, p4⟩ := h
        simp only [Bool.or_eq_false_iff] at h1
        obtain ⟨b1, b2⟩ := hb r (by simp) h1.1 h1.2 h2
        have he : endOf line r = stopOf line r := rfl
        have hgap : writeGap line pos r.start = .ok (chars line pos r.start) := by
          unfold writeGap
          split
          · rw [writeSlice_ok _ _ _ p0 (by omega)]
            congr 2
            omega
          · have : pos = r.start := by omega
            subst this
            simp [chars]
        have hpos : gapPos pos r.start = r.start := by
          unfold gapPos
          split <;> omega
        have hs : r.start + (stopOf line r - r.start) = stopOf line r := by omega
        simp only [hgap, hpos, he, bind, Except.bind, b1, b2]
        rw [writeSlice_ok _ _ _ (by omega) (by omega), hs, ih' _ p4]

theorem textOf_append (a b : List Out) : textOf (a ++ b) = textOf a ++ textOf b := List.filterMap_append ..

theorem textOf_chars (line : Str) (a b : Int) : textOf (chars line a b) = (line.drop a.toNat).take (b - a).toNat := by
  unfold textOf chars
  rw [List.filterMap_map]
  induction (line.drop a.toNat).take (b - a).toNat with
  | nil => rfl
  | cons c r ih => simp [ih]

theorem take_drop_chain (line : Str) (a b : Int) (h0 : 0 ≤ a) (h : a ≤ b) :
    (line.drop a.toNat).take (b - a).toNat ++ line.drop b.toNat = line.drop a.toNat := by
  have : line.drop b.toNat = (line.drop a.toNat).drop (b - a).toNat := by
    rw [List.drop_drop]
    congr 1
    omega
  rw [this, List.take_append_drop]

theorem textOf_render (line : Str) (shown : Reg → Bool) (opening closing : Reg → List Out)
    (h1 : ∀ r, textOf (opening r) = []) (h2 : ∀ r, textOf (closing r) = []) (regs : List Reg) :
    ∀ pos, InOrder line shown pos regs → textOf (render line shown opening closing pos regs) = line.drop pos.toNat := by
  induction regs with
  | nil =>
    intro pos h
    simp only [InOrder] at h
    rw [render, textOf_chars]
    rw [List.take_of_length_le]
    simp; omega
  | cons r rs ih =>
    intro pos h
    rw [render]
    rw [InOrder] at h
    split at h
    · rename_i hs
      rw [if_pos hs]
      obtain ⟨p0, p1, p2, p3, p4⟩ := h
      simp only [textOf_append, h1, h2, List.nil_append, textOf_chars, ih _ p4, List.append_assoc]
      rw [take_drop_chain _ _ _ (by omega) p2, take_drop_chain _ _ _ p0 p1]
    · rename_i hs
      rw [if_neg hs]
      exact ih pos h

/-- C06 (tokens): for regions in order inside the line, the output is the line with every region between
`<span class='names'>` and `</span>`, and the text written is the line. -/
theorem C06_tokenWrite (line : Str) (regs : List Reg)
    (h : InOrder line (fun r => !(r.special || r.region.isNone)) 0 regs) :
    ∃ out, tokenWrite line regs = .ok out ∧ textOf out = line ∧
      out = render line (fun r => !(r.special || r.region.isNone)) tokenBefore (fun _ => [.markup (lit "</span>")]) 0 regs := by
  have hn : ∀ (ps : List Str) (n : Str), textOf (tokenNames n ps) = [] := by
    intro ps
    induction ps with
    | nil => intro n; rfl
    | cons p r ih => intro n; simpa [tokenNames, textOf] using ih p
  refine ⟨_, writeLoop_ok line _ _ _ tokenBefore (fun _ => [.markup (lit "</span>")]) regs (by intros; exact ⟨rfl, rfl⟩) 0 h, ?_, rfl⟩
  rw [textOf_render _ _ _ _ _ _ _ _ h]
  · rfl
  · intro r
    unfold tokenBefore
    split
    · rfl
    · rw [textOf_append]
      rename_i n ps _
      have := hn ps n
      simp only [textOf, List.filterMap_cons] at this ⊢
      simp [this]
  · intro r; rfl

/-- the opening of a region with a text style -/
def markupOpen (r : Reg) : List Out :=
  match r.rdef with
  | some (.texted t) => optMarkup t.startBack ++ optMarkup t.startText
  | _ => []

/-- its closing -/
def markupClose (r : Reg) : List Out :=
  match r.rdef with
  | some (.texted t) => optMarkup t.endText ++ optMarkup t.endBack
  | _ => []

theorem textOf_optMarkup (o : Option Str) : textOf (optMarkup o) = [] := by
  cases o <;> rfl

/-- C06 (markup): every style is a text style; the text written is the line, every region stands between its own opening and
closing texts (the background's outside). -/
theorem C06_markupWrite (line : Str) (regs : List Reg) (h : InOrder line (fun r => !(r.special || r.rdef.isNone)) 0 regs)
    (hk : ∀ r ∈ regs, ∀ s, r.rdef ≠ some (.styled s)) :
    ∃ out, markupWrite line regs = .ok out ∧ textOf out = line ∧
      out = render line (fun r => !(r.special || r.rdef.isNone)) markupOpen markupClose 0 regs := by
  have hw := writeLoop_ok line (fun r => r.rdef.isNone)
    (fun r _ _ => (texted r).map fun t => optMarkup t.startBack ++ optMarkup t.startText)
    (fun r _ _ => (texted r).map fun t => optMarkup t.endText ++ optMarkup t.endBack) markupOpen markupClose regs (by
      intro r hr _ hsk _
      cases hd : r.rdef with
      | none => simp [hd] at hsk
      | some d =>
        cases d with
        | styled s => exact absurd hd (hk r hr s)
        | texted t => simp [texted, markupOpen, markupClose, hd, Except.map]) 0 h
  refine ⟨_, hw, ?_, rfl⟩
  rw [textOf_render _ _ _ _ _ _ _ _ h]
  · rfl
  · intro r
    unfold markupOpen
    split
    · simp [textOf_append, textOf_optMarkup]
    · rfl
  · intro r
    unfold markupClose
    split
    · simp [textOf_append, textOf_optMarkup]
    · rfl

/-- the link of a region: the address registered for its text in its scheme, or else for its text -/
def linkOf (links : Option (Str → Option Str)) (line : Str) (r : Reg) : Option Str :=
  match links with
  | none => none
  | some f =>
    let text := (line.drop r.start.toNat).take (stopOf line r - r.start).toNat
    match r.scheme with
    | none => f text
    | some s => if (f (text ++ lit "--" ++ s)).isSome then f (text ++ lit "--" ++ s) else f text

/-- opening: the link, then the style -/
def htmlOpen (links : Option (Str → Option Str)) (line : Str) (r : Reg) : List Out :=
  match r.rdef with
  | some (.styled s) =>
    (match linkOf links line r with | none => [] | some url => [.markup (lit "<a href='" ++ url ++ lit "'>")]) ++ writeStart s
  | _ => []

/-- closing: the style, then the link -/
def htmlClose (links : Option (Str → Option Str)) (line : Str) (r : Reg) : List Out :=
  match r.rdef with
  | some (.styled s) =>
    writeEnd s ++ (match linkOf links line r with | none => [] | some _ => [.markup (lit "</a>")])
  | _ => []

theorem textOf_writeStart (s : Styles.Styled) : textOf (writeStart s) = [] := by
  unfold writeStart
  split
  · rfl
  · split <;> rfl

theorem textOf_writeEnd (s : Styles.Styled) : textOf (writeEnd s) = [] := by
  unfold writeEnd
  split <;> rfl

/-- C06 (html): every style is a colour style; the text written is the line, every region stands between its own link and
span. -/
theorem C06_htmlRGBWrite (links : Option (Str → Option Str)) (line : Str) (regs : List Reg)
    (h : InOrder line (fun r => !(r.special || r.rdef.isNone)) 0 regs) (hk : ∀ r ∈ regs, ∀ s, r.rdef ≠ some (.texted s)) :
    ∃ out, htmlRGBWrite links line regs = .ok out ∧ textOf out = line ∧
      out = render line (fun r => !(r.special || r.rdef.isNone)) (htmlOpen links line) (htmlClose links line) 0 regs := by
  have hw := writeLoop_ok line (fun r => r.rdef.isNone)
    (fun r pos n => (styled r).map fun s => hrefPart links line r pos n true ++ writeStart s)
    (fun r pos n => (styled r).map fun s => writeEnd s ++ hrefPart links line r pos n false)
    (htmlOpen links line) (htmlClose links line) regs (by
      intro r hr _ hsk _
      cases hd : r.rdef with
      | none => simp [hd] at hsk
      | some d =>
        cases d with
        | texted s => exact absurd hd (hk r hr s)
        | styled t =>
          simp only [styled, htmlOpen, htmlClose, hd, Except.map, Except.ok.injEq, hrefPart, part]
          cases links with
          | none => simp [linkOf]
          | some f =>
            have hu : hrefUrl f r.scheme ((line.drop r.start.toNat).take (stopOf line r - r.start).toNat) =
                linkOf (some f) line r := by
              unfold hrefUrl linkOf
              cases r.scheme with
              | none => rfl
              | some s =>
                simp only [Option.bind_some]
                cases f (List.take (stopOf line r - r.start).toNat (List.drop r.start.toNat line) ++ lit "--" ++ s) <;> simp
            simp only [writeHref, hu]
            cases linkOf (some f) line r <;> simp) 0 h
  refine ⟨_, hw, ?_, rfl⟩
  rw [textOf_render _ _ _ _ _ _ _ _ h]
  · rfl
  · intro r
    unfold htmlOpen
    split
    · rw [textOf_append, textOf_writeStart]
      split <;> rfl
    · rfl
  · intro r
    unfold htmlClose
    split
    · rw [textOf_append, textOf_writeEnd]
      split <;> rfl
    · rfl

theorem replaceAll_char (a : Nat) (b : Nat) (l : Str) :
    Strings.replaceAll [a] [b] l = l.map fun c => if c = a then b else c := by
  induction l with
  | nil => simp [Strings.replaceAll]
  | cons c r ih =>
    unfold Strings.replaceAll
    by_cases h : c = a
    · subst h; simp [ih]
    · have : ¬ (a = c) := fun e => h e.symm
      simp [ih, h, this]

/-- the markup written, as one string -/
def markupOf (out : List Out) : Str :=
  out.flatMap fun o => match o with | .ch _ => [] | .markup s => s

theorem tokenName_eq (s : Str) : tokenName s = s.map fun c => if c = 58 ∨ c = 46 then 45 else c := by
  unfold tokenName
  rw [Strings.C39_findAndReplace _ _ _ (by simp), Option.bind_some, Strings.C39_findAndReplace _ _ _ (by simp), replaceAll_char,
    replaceAll_char, Option.getD_some, List.map_map]
  apply List.map_congr_left
  intro c _
  simp only [Function.comp_apply]
  by_cases h1 : c = 58
  · simp [h1]
  · simp [h1]

/-- C06: the class attribute of a token lists the names of the region and its ancestors, nearest first, separated by blanks,
with `:` and `.` written as `-`. -/
theorem C06_token_class (r : Reg) (n : Str) (ps : List Str) (h : r.region = some (n, ps)) :
    markupOf (tokenBefore r) = lit "<span class='" ++
      List.intercalate [32] ((n :: ps).map fun s => s.map fun c => if c = 58 ∨ c = 46 then 45 else c) ++ lit "'>" := by
  have hname := tokenName_eq
  have hn : ∀ (ps : List Str) (n : Str), markupOf (tokenNames n ps) =
      List.intercalate [32] ((n :: ps).map fun s => s.map fun c => if c = 58 ∨ c = 46 then 45 else c) := by
    intro ps
    induction ps with
    | nil => intro n; simp [tokenNames, markupOf, hname, List.intercalate]
    | cons p q ih =>
      intro n
      have := ih p
      simp only [tokenNames, markupOf, List.flatMap_cons] at this ⊢
      rw [this, hname]
      simp [List.intercalate]
  unfold tokenBefore
  rw [h]
  simp only [markupOf, List.flatMap_append, List.flatMap_cons, List.flatMap_nil] at hn ⊢
  rw [hn ps n]
  simp

/-! ## C48: the style attribute -/

/-- the declarations of a style, in order -/
def declarations (s : Styles.Styled) : Str :=
  (if s.isForeSet then lit "color:#" ++ hex6 s.fore ++ lit "; " else []) ++
  (if s.isBackSet then lit "background:#" ++ hex6 s.back ++ lit "; " else []) ++
  (if s.style.getLsbD 0 then lit "font-weight:bold; " else []) ++
  (if s.style.getLsbD 1 then lit "font-style:italic; " else []) ++
  (if s.style.getLsbD 2 then lit "text-decoration:underline; " else []) ++
  (if s.style.getLsbD 3 then lit "text-decoration:strikeout; " else [])

theorem hexDigits_length (k n : Nat) : (hexDigits k n).length = k := by
  induction k generalizing n with
  | zero => rfl
  | succ k ih => simp [hexDigits, ih]

theorem hex6_length (n : BitVec 32) : (hex6 n).length ≤ 8 := by
  unfold hex6
  split
  · rw [hexDigits_length]; omega
  · split <;> rw [hexDigits_length] <;> omega

theorem cond_ok (c : Bool) (s t : Str) (n : Nat) (h : n = t.length) (hl : t.length + s.length < 256) :
    cond c 256 s (t, n) = (t ++ (if c then s else []), (t ++ (if c then s else [])).length) := by
  subst h
  cases c with
  | false => simp [cond]
  | true =>
    simp only [cond, if_true, snprintf, List.length_append, Prod.mk.injEq, and_true, List.append_cancel_left_eq]
    exact List.take_of_length_le (by omega)

/-- the value written by lower case hexadecimal digits -/
def hexVal (l : Str) : Nat := l.foldl (fun a c => a * 16 + (if c < 58 then c - 48 else c - 87)) 0

theorem hexVal_digits (k n : Nat) (h : n < 16 ^ k) : hexVal (hexDigits k n) = n := by
  induction k generalizing n with
  | zero => simp at h; subst h; rfl
  | succ k ih =>
    have h1 : n / 16 < 16 ^ k := by
      rw [Nat.pow_succ] at h
      omega
    unfold hexVal at ih ⊢
    rw [hexDigits, List.foldl_append, ih _ h1]
    simp only [List.foldl_cons, List.foldl_nil]
    have := Nat.mod_lt n (show 16 > 0 by omega)
    split <;> split <;> omega

/-- C48: the six (or, for values over six digits, seven or eight) digits of a colour read back as the colour. -/
theorem C48_colour_digits (n : BitVec 32) : hexVal (hex6 n) = n.toNat ∧ 6 ≤ (hex6 n).length ∧
    (n.toNat < 16 ^ 6 → (hex6 n).length = 6) := by
  have := n.isLt
  unfold hex6
  split
  · rename_i h
    exact ⟨hexVal_digits 6 _ h, by simp [hexDigits_length], fun _ => hexDigits_length _ _⟩
  · rename_i h
    split
    · rename_i h2
      exact ⟨hexVal_digits 7 _ h2, by simp [hexDigits_length], fun h3 => absurd h3 h⟩
    · exact ⟨hexVal_digits 8 _ (by omega), by simp [hexDigits_length], fun h3 => absurd h3 h⟩

/-- C48: the fixed buffer is never too small; the text is exactly the declarations of the style. -/
theorem C48_style_never_truncated (s : Styles.Styled) :
    styleText s = (declarations s, (declarations s).length) ∧ (declarations s).length < 256 := by
  have hf := hex6_length s.fore
  have hb := hex6_length s.back
  have e1 : (lit "color:#").length = 7 := by decide
  have e2 : (lit "; ").length = 2 := by decide
  have e3 : (lit "background:#").length = 12 := by decide
  have e4 : (lit "font-weight:bold; ").length = 18 := by decide
  have e5 : (lit "font-style:italic; ").length = 19 := by decide
  have e6 : (lit "text-decoration:underline; ").length = 27 := by decide
  have e7 : (lit "text-decoration:strikeout; ").length = 27 := by decide
  have l1 : ∀ (c : Bool) (t : Str), (if c then t else []).length ≤ t.length := by
    intro c t; cases c <;> simp
  have a1 := l1 s.isForeSet (lit "color:#" ++ hex6 s.fore ++ lit "; ")
  have a2 := l1 s.isBackSet (lit "background:#" ++ hex6 s.back ++ lit "; ")
  have a3 := l1 (s.style.getLsbD 0) (lit "font-weight:bold; ")
  have a4 := l1 (s.style.getLsbD 1) (lit "font-style:italic; ")
  have a5 := l1 (s.style.getLsbD 2) (lit "text-decoration:underline; ")
  have a6 := l1 (s.style.getLsbD 3) (lit "text-decoration:strikeout; ")
  simp only [List.length_append, e1, e2, e3, e4, e5, e6, e7] at a1 a2 a3 a4 a5 a6
  constructor
  · unfold styleText hasStyle declarations
    rw [cond_ok s.isForeSet _ [] 0 rfl (by simp only [List.length_append, List.length_nil, e1, e2]; omega)]
    rw [cond_ok s.isBackSet _ _ _ rfl (by simp only [List.length_append, List.length_nil, e1, e2, e3]; omega)]
    rw [cond_ok (s.style.getLsbD 0) _ _ _ rfl (by simp only [List.length_append, List.length_nil, e4]; omega)]
    rw [cond_ok (s.style.getLsbD 1) _ _ _ rfl (by simp only [List.length_append, List.length_nil, e5]; omega)]
    rw [cond_ok (s.style.getLsbD 2) _ _ _ rfl (by simp only [List.length_append, List.length_nil, e6]; omega)]
    rw [cond_ok (s.style.getLsbD 3) _ _ _ rfl (by simp only [List.length_append, List.length_nil, e7]; omega)]
    simp
  · unfold declarations
    simp only [List.length_append]
    omega

/-- C48 (partial: for styles with a colour): opening and closing tags always pair, and the opening carries all declarations.
Missing: a style without colours, see below. -/
theorem C48_style_written_partial (s : Styles.Styled) (h : s.isForeSet = true ∨ s.isBackSet = true) :
    writeStart s = [.markup (lit "<span style='"), .markup (declarations s), .markup (lit "'>")] ∧
    writeEnd s = [.markup (lit "</span>")] := by
  have hc : (!s.isForeSet && !s.isBackSet) = false := by
    rcases h with h | h <;> simp [h]
  have hpos : (declarations s).length > 0 := by
    have e1 : (lit "color:#").length = 7 := by decide
    have e3 : (lit "background:#").length = 12 := by decide
    unfold declarations
    rcases h with h | h <;> simp only [h, if_true, List.length_append, e1, e3] <;> omega
  unfold writeStart writeEnd
  rw [(C48_style_never_truncated s).1]
  simp [hpos, hc]

/-- the other case: nothing at all is written, at both ends -/
theorem C48_no_colour_no_tag (s : Styles.Styled) (h1 : s.isForeSet = false) (h2 : s.isBackSet = false) :
    writeStart s = [] ∧ writeEnd s = [] := by
  simp [writeStart, writeEnd, h1, h2]

/-- C48, false: a bold style without colours is not written. -/
theorem C48_violated_bold_without_colour :
    writeStart ⟨false, false, 0, 0, 1⟩ = [] ∧ declarations ⟨false, false, 0, 0, 1⟩ = lit "font-weight:bold; " := by
  decide

example : writeStart ⟨true, false, 0xff8000, 0, 3⟩ =
    [.markup (lit "<span style='"), .markup (lit "color:#ff8000; font-weight:bold; font-style:italic; "), .markup (lit "'>")] := by
  decide +kernel

/-! ## C49: the console viewer -/

/-- C49: a region colours exactly its own visible columns: column `x` of the screen is coloured iff it is on the screen and
shows a column of the region. -/
theorem C49_screen_columns (lineLen leftpos width x : Int) (r : Reg) (hs : r.special = false) (hd : r.rdef.isSome) :
    (∃ a b, screenRange lineLen leftpos width r = some (a, b) ∧ a ≤ x ∧ x < b) ↔
      (0 ≤ x ∧ x < width ∧ r.start ≤ x + leftpos ∧ x + leftpos < (if r.stop = -1 then lineLen else r.stop)) := by
  unfold screenRange
  have hn : r.rdef.isNone = false := by
    cases h : r.rdef with
    | none => simp [h] at hd
    | some d => rfl
  rw [if_neg (by simp [hs, hn])]
  simp only
  generalize (if r.stop = -1 then lineLen else r.stop) = e
  constructor
  · rintro ⟨a, b, h, h1, h2⟩
    grind
  · rintro ⟨h1, h2, h3, h4⟩
    have hc : ¬ ((if r.start - leftpos < 0 then e - r.start + (r.start - leftpos) else e - r.start) < 0 ∨
        (if r.start - leftpos < 0 then 0 else r.start - leftpos) ≥ width) := by grind
    refine ⟨_, _, by rw [if_neg hc], by grind, by grind⟩

/-- C49: special regions and regions without a style colour nothing; no painting outside the screen row. -/
theorem C49_screen_bounds (lineLen leftpos width a b : Int) (r : Reg) (h : screenRange lineLen leftpos width r = some (a, b)) :
    0 ≤ a ∧ b ≤ width ∧ r.special = false ∧ r.rdef.isSome := by
  unfold screenRange at h
  split at h
  · simp at h
  · rename_i hc
    simp only at h
    generalize (if r.stop = -1 then lineLen else r.stop) = e at h
    refine ⟨by grind, by grind, by grind, ?_⟩
    cases h : r.rdef with
    | none => simp [h] at hc
    | some d => rfl

/-- keys pressed on screens of changing height -/
def View.keys (count : Int) (v : View) (ks : List (Int × Key)) : View := ks.foldl (fun v k => v.key count k.1 k.2) v

/-- C49: whatever keys are pressed and however the window is resized, the view never leaves the text, and the range announced
to the editor consists of lines of the text. -/
theorem C49_view_stays_in_text (count : Int) (hc : 0 ≤ count) (ks : List (Int × Key)) (hk : ∀ k ∈ ks, 0 ≤ k.1) (rows : Int)
    (hr : 0 ≤ rows) :
    let v := View.keys count ⟨0, 0⟩ ks
    0 ≤ v.leftpos ∧ 0 ≤ v.topline ∧ v.topline ≤ count ∧ 0 ≤ v.lines count rows ∧ v.topline + v.lines count rows ≤ count ∧
      v.lines count rows ≤ rows := by
  have hinv : ∀ (ks : List (Int × Key)) (v : View), (∀ k ∈ ks, 0 ≤ k.1) → 0 ≤ v.leftpos ∧ 0 ≤ v.topline ∧ v.topline ≤ count →
      0 ≤ (View.keys count v ks).leftpos ∧ 0 ≤ (View.keys count v ks).topline ∧ (View.keys count v ks).topline ≤ count := by
    intro ks
    induction ks with
    | nil => intro v _ h; exact h
    | cons k r ih =>
      intro v hk h
      refine ih (v.key count k.1 k.2) (fun x hx => hk x (by simp [hx])) ?_
      have h0 := hk k (by simp)
      obtain ⟨rw', key⟩ := k
      obtain ⟨t, l⟩ := v
      simp only at h h0
      cases key <;> simp only [View.key, clamp0] <;> grind
  have := hinv ks ⟨0, 0⟩ hk (by simp; exact hc)
  simp only
  refine ⟨this.1, this.2.1, this.2.2, ?_⟩
  unfold View.lines
  grind

example : View.keys 100 ⟨0, 0⟩ [(25, .next), (25, .down), (40, .end'), (40, .up), (40, .right true)] = ⟨59, 16⟩ := by decide

end Verif.Viewer
