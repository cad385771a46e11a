import Verif.Io.Archive
/-!
# The parts of an XML source (C83)

Models, from /repo/src/colorer/xml/libxml2/LibXmlReader.cpp: the constructor 20-31, the destructor 35-41, `xmlZipEntityLoader` 116-133 (which member is
read, and the file name it is given), `xmlMyExternalEntityLoader` 136-183. libxml2 is a client: it asks the loader for the source, then for any number of
external entities, each declared in a source or entity read before; the URL it asks for is the system identifier of the declaration, put behind the directory
of the file name of the input the declaration is in, if it is relative (`xmlSAX2EntityDecl`, `xmlBuildURI`; `.` and `..` are not modelled).

Property C83: an external entity is read from beside the file that declares it, whatever was read before.
-/
namespace Verif.Io
open Verif.Strings

/-- "env:" -/
def envP : Str := [101, 110, 118, 58]

/-- what is on the disk; `member jar name`: the archive can be read and has the member; `expand`: expandSpecialEnvironment -/
structure World where
  isFile : Str → Bool
  member : Str → Str → Bool
  expand : Str → Str

/-- what the loader gives to libxml2. `throws`: an exception leaves it through the C code of libxml2; `null`: a null pointer is followed -/
inductive Got where
  | file (path : Str)
  | member (jar name : Str)
  | nothing
  | throws
  | null
deriving DecidableEq, Repr

/-- the static members `current_file`, `is_first_call` -/
structure Reading where
  cur : Option Str
  first : Bool

/-- `lastIndexOf('/') + 1` -/
def afterSlash (t : Str) : Nat := match lastIndexOf t SLASH none with
  | none => 0
  | some i => i + 1

/-- 157-167; the exceptions of getFullPathsToZip are not caught -/
def loadZip (w : World) (st : Reading) (url : Str) : Got × Reading :=
  match fullPathsToZip w.expand url (if st.first then none else st.cur) with
  | .error _ => (.throws, st)
  | .ok p => (if w.member p.toJar p.inJar then .member p.toJar p.inJar else .nothing, { st with first := false })

/-- 171-176 -/
def orBeside (w : World) (st : Reading) (cur url : Str) : Str :=
  if !st.first && !w.isFile url then
    match getAbsolutePath cur url with
    | some p => if w.isFile p then p else url
    | none => url
  else url

/-- `xmlMyExternalEntityLoader` 136-183; reading a file that is none gives nothing -/
def loader (w : World) (st : Reading) (url : Str) : Got × Reading :=
  match if !st.first && startsWith url envP 0 then tail (w.expand url) 4 else some url with
  | none => (.throws, st)
  | some u =>
    if startsWith u jar 0 then loadZip w st u
    else match st.cur with
      | none => (.null, st)
      | some cur =>
        if startsWith cur jar 0 then loadZip w st u
        else (if w.isFile (orBeside w st cur u) then .file (orBeside w st cur u) else .nothing, { st with first := false })

/-- the file name of an input: 129-131; that of a file is its path -/
def fileName : Got → Str
  | .file p => p
  | .member _ n => n.drop (afterSlash n)
  | .nothing | .throws | .null => []

/-- libxml2: the URL of an entity declared in an input of this name. Absolute: with a scheme, or from the root. -/
def buildURI (sys base : Str) : Str := if sys.contains COLON || sys.head? == some SLASH then sys else base.take (afterSlash base) ++ sys

/-- libxml2: the entities, each declared in the input with the given number; `got`: what was read so far -/
def entities (w : World) (st : Reading) (got : List Got) : List (Nat × Str) → List Got × Reading
  | [] => (got, st)
  | (i, sys) :: r =>
    let (g, st') := loader w st (buildURI sys (fileName (got.getD i .nothing)))
    entities w st' (got ++ [g]) r

/-- a reader is made (20-31): the source and its entities are read -/
def readDoc (w : World) (st : Reading) (source : Str) (es : List (Nat × Str)) : List Got × Reading :=
  let st := { st with cur := some source }
  let st := { st with first := true }
  let (g, st') := loader w st source
  entities w st' [g] es

/-- it is destroyed (35-41) -/
def destroy (st : Reading) : Reading := { st with cur := none }

/-- what the application does with readers -/
inductive ReaderCall where
  | read (source : Str) (es : List (Nat × Str))
  | destroy

def runReaders (w : World) (st : Reading) : List ReaderCall → Reading
  | [] => st
  | .read s es :: r => runReaders w (readDoc w st s es).2 r
  | .destroy :: r => runReaders w (destroy st) r

/-! ## Specification -/

/-- `q` is `p` with the name behind the last '/' replaced by `s` -/
def Beside (p s q : Str) : Prop := ∃ d f, p = d ++ f ∧ SLASH ∉ f ∧ (d = [] ∨ ∃ d', d = d' ++ [SLASH]) ∧ q = d ++ s

/-- a relative name -/
def Rel (s : Str) : Prop := COLON ∉ s ∧ s.head? ≠ some SLASH

/-- where an entity `sys` declared in the file `p` is: beside it, at an absolute place, or at a place of the environment -/
inductive Place (w : World) (p : Str) : Str → Str → Prop
  | beside {s q : Str} : Rel s → Beside p s q → Place w p s q
  | root {r : Str} : COLON ∉ r → Place w p (SLASH :: r) (SLASH :: r)
  | env {e r : Str} : w.expand (envP ++ e) = envP ++ SLASH :: r → Place w p (envP ++ e) (SLASH :: r)

/-- the places of all entities: `ps` those of the source and the entities before -/
inductive Places (w : World) : List Str → List (Nat × Str) → List Str → Prop
  | nil {ps : List Str} : Places w ps [] ps
  | cons {ps qs : List Str} {i : Nat} {s p q : Str} {r : List (Nat × Str)} : ps[i]? = some p → Place w p s q → w.isFile q = true → Places w (ps ++ [q]) r qs →
      Places w ps ((i, s) :: r) qs

/-! ## Proofs -/

theorem slash_split (p : Str) : ∃ f, p = p.take (afterSlash p) ++ f ∧ SLASH ∉ f ∧ (p.take (afterSlash p) = [] ∨ ∃ d, p.take (afterSlash p) = d ++ [SLASH]) := by
  unfold afterSlash
  cases h : lastIndexOf p SLASH none with
  | none => exact ⟨p, by simp, not_mem_of_none h, .inl (by simp)⟩
  | some i =>
    obtain ⟨h1, h2, h3⟩ := last_split h
    have e : p.take (i + 1) = p.take i ++ [SLASH] := by
      conv => lhs; rw [h2]
      rw [List.take_append, List.take_of_length_le (by simp; omega)]
      simp [Nat.min_eq_left (Nat.le_of_lt h1)]
    exact ⟨p.drop (i + 1), (List.take_append_drop _ _).symm, h3, .inr ⟨_, e⟩⟩

theorem slash_unique {p d f : Str} (e : p = d ++ f) (hf : SLASH ∉ f) (hd : d = [] ∨ ∃ d', d = d' ++ [SLASH]) : p.take (afterSlash p) = d := by
  unfold afterSlash
  rcases hd with rfl | ⟨d', rfl⟩
  · cases h : lastIndexOf p SLASH none with
    | none => simp
    | some i =>
      obtain ⟨h1, h2, h3⟩ := last_split h
      exfalso
      rw [List.nil_append] at e
      subst e
      exact hf (by rw [h2]; simp)
  · have : lastIndexOf p SLASH none = some d'.length := by rw [e, List.append_assoc, List.singleton_append]; exact last_of_split hf
    rw [this, e]
    simp only
    rw [List.take_append_of_le_length (by simp), List.take_of_length_le (by simp)]

theorem build_beside {p s q : Str} (hs : Rel s) (h : Beside p s q) : buildURI s p = q := by
  obtain ⟨d, f, h1, h2, h3, rfl⟩ := h
  rw [buildURI, if_neg, slash_unique h1 h2 h3]
  have h4 := hs.1
  have h5 := hs.2
  simp [h4, h5]

theorem no_prefix {P : Str} {c : Nat} {r : Str} (h : P.head? ≠ some c) (h0 : P ≠ []) : startsWith (c :: r) P 0 = false := by
  rw [← Bool.not_eq_true, starts_iff]
  rintro ⟨t, ht⟩
  cases P with
  | nil => exact h0 rfl
  | cons a t => rw [List.cons_append] at ht; exact h (by rw [(List.cons.inj ht).1]; rfl)

theorem loader_file {w : World} {cur r : Str} (hf : w.isFile (SLASH :: r) = true) (hc : ¬ jar <+: cur) (b : Bool) :
    loader w ⟨some cur, b⟩ (SLASH :: r) = (.file (SLASH :: r), ⟨some cur, false⟩) := by
  have h1 : startsWith (SLASH :: r) envP 0 = false := no_prefix (by decide) (by decide)
  have h2 : startsWith (SLASH :: r) jar 0 = false := no_prefix (by decide) (by decide)
  have h3 : startsWith cur jar 0 = false := by rw [← Bool.not_eq_true, starts_iff]; exact hc
  have h4 : orBeside w ⟨some cur, b⟩ cur (SLASH :: r) = SLASH :: r := by simp [orBeside, hf]
  unfold loader
  rw [h1, Bool.and_false, if_neg (by decide)]
  simp only [h2, h3, h4, hf, if_true, Bool.false_eq_true, if_false]

theorem place_load {w : World} {cur p s q : Str} (hp : p.head? = some SLASH) (hc : ¬ jar <+: cur) (h : Place w p s q) (hf : w.isFile q = true) :
    loader w ⟨some cur, false⟩ (buildURI s p) = (.file q, ⟨some cur, false⟩) ∧ q.head? = some SLASH := by
  cases h with
  | beside hs hb =>
    rw [build_beside hs hb]
    obtain ⟨d, f, h1, h2, h3, rfl⟩ := hb
    have hd : d.head? = some SLASH := by
      rcases h3 with rfl | ⟨d', rfl⟩
      · rw [List.nil_append] at h1
        subst h1
        exact absurd (List.mem_of_mem_head? hp) h2
      · cases d' with
        | nil => rfl
        | cons a t => rw [h1] at hp; simpa using hp
    cases d with
    | nil => cases hd
    | cons a t =>
      obtain rfl : a = SLASH := by simpa using hd
      exact ⟨loader_file hf hc false, rfl⟩
  | @root r hr =>
    rw [buildURI, if_pos (by simp)]
    exact ⟨loader_file hf hc false, rfl⟩
  | @env e r he =>
    rw [buildURI, if_pos (by simp [envP, COLON])]
    refine ⟨?_, rfl⟩
    have h1 : startsWith (envP ++ e) envP 0 = true := (starts_iff _ _).2 ⟨e, rfl⟩
    have h2 := loader_file hf hc false
    unfold loader at h2 ⊢
    rw [h1, if_pos (by simp), he, show tail (envP ++ SLASH :: r) 4 = some (SLASH :: r) by simp [tail, envP]]
    rw [no_prefix (P := envP) (by decide) (by decide), if_neg (by simp)] at h2
    exact h2

theorem entities_files {w : World} {cur : Str} (hc : ¬ jar <+: cur) : ∀ {es : List (Nat × Str)} {ps qs : List Str}, Places w ps es qs →
    (∀ p ∈ ps, p.head? = some SLASH) → (entities w ⟨some cur, false⟩ (ps.map .file) es).1 = qs.map .file := by
  intro es ps qs h
  induction h with
  | nil => intro _; rfl
  | @cons ps qs i s p q r h1 h2 h3 h4 ih =>
    intro hp
    have hm := List.mem_of_getElem? h1
    obtain ⟨e1, e2⟩ := place_load (hp p hm) hc h2 h3
    rw [entities]
    have : (ps.map Got.file).getD i .nothing = .file p := by rw [List.getD_eq_getElem?_getD, List.getElem?_map, h1]; rfl
    rw [this, fileName, e1]
    have := ih (by
      intro x hx
      rcases List.mem_append.1 hx with hx | hx
      · exact hp x hx
      · rw [List.mem_singleton.1 hx]; exact e2)
    rw [List.map_append] at this
    exact this

/-- **C83 (partial)**: entities of plain files. If the source is a file given by an absolute path, every entity declared in it, or in an entity of it, at any depth
and in any order, is read from where the declaration says: beside the file with the declaration, from the root, or from the environment. Whatever readers were
made and destroyed before. -/
theorem C83_entities_are_read_from_beside_their_declaration_partial (w : World) (st : Reading) {source : Str} {es : List (Nat × Str)} {qs : List Str}
    (h1 : source.head? = some SLASH) (h2 : w.isFile source = true) (h3 : Places w [source] es qs) : (readDoc w st source es).1 = qs.map .file := by
  have hc : ¬ jar <+: source := by
    rintro ⟨t, ht⟩
    rw [← ht] at h1
    simp [jar, SLASH] at h1
  cases source with
  | nil => cases h1
  | cons a t =>
    obtain rfl : a = SLASH := by simpa using h1
    rw [readDoc, loader_file h2 hc true]
    exact entities_files hc h3 (by intro p hp; rw [List.mem_singleton.1 hp]; rfl)

theorem fileName_member (J n : Str) : SLASH ∉ fileName (.member J n) := by
  obtain ⟨f, h1, h2, -⟩ := slash_split n
  have e : n.drop (afterSlash n) = f := by
    have := congrArg (List.drop (n.take (afterSlash n)).length) h1
    rw [List.drop_left] at this
    rw [← this, List.length_take]
    by_cases h : afterSlash n ≤ n.length
    · rw [Nat.min_eq_left h]
    · rw [Nat.min_eq_right (by omega), List.drop_of_length_le (by omega), List.drop_of_length_le (Nat.le_refl _)]
  show SLASH ∉ n.drop (afterSlash n)
  rw [e]
  exact h2

theorem build_member {J n s : Str} (hs : Rel s) : buildURI s (fileName (.member J n)) = s :=
  build_beside hs ⟨[], _, rfl, fileName_member J n, .inl rfl, rfl⟩

theorem rel_prefix {s P : Str} (hs : Rel s) (h : COLON ∈ P) : startsWith s P 0 = false := by
  rw [← Bool.not_eq_true, starts_iff]
  rintro ⟨t, rfl⟩
  exact hs.1 (List.mem_append_left _ h)

theorem entities_members {w : World} {J I d f : Str} (hI : BANG ∉ I) (hd : Splits I d f) : ∀ (es : List (Nat × Str)) (ns : List Str),
    (∀ e ∈ es, Rel e.2 ∧ w.member J (d ++ e.2) = true) → (∀ k e, es[k]? = some e → e.1 < ns.length + k) →
    (entities w ⟨some (jar ++ J ++ BANG :: I), false⟩ (ns.map (.member J)) es).1 = (ns ++ es.map fun e => d ++ e.2).map (.member J)
  | [], ns, _, _ => by simp [entities]
  | (i, s) :: r, ns, h1, h2 => by
    obtain ⟨hs, hm⟩ := h1 _ List.mem_cons_self
    have hi : i < ns.length := h2 0 _ rfl
    have e0 : (ns.map (Got.member J)).getD i .nothing = .member J ns[i] := by
      rw [List.getD_eq_getElem?_getD, List.getElem?_map, List.getElem?_eq_getElem hi]; rfl
    have hz : fullPathsToZip w.expand s (some (jar ++ J ++ BANG :: I)) = .ok ⟨jar ++ J ++ BANG :: (d ++ s), J, d ++ s⟩ :=
      C54_archive_relative w.expand J I s d f hI (fun h => by have := (starts_iff _ _).2 h; rw [rel_prefix hs (by decide)] at this; cases this) hd
    have e1 : loader w ⟨some (jar ++ J ++ BANG :: I), false⟩ s = (.member J (d ++ s), ⟨some (jar ++ J ++ BANG :: I), false⟩) := by
      have hj : startsWith (jar ++ J ++ BANG :: I) jar 0 = true := (starts_iff _ _).2 ⟨J ++ BANG :: I, by simp⟩
      unfold loader
      rw [rel_prefix hs (by decide), Bool.and_false, if_neg (by decide)]
      simp only [rel_prefix (P := jar) hs (by decide), hj, Bool.false_eq_true, if_false, if_true, loadZip, hz, hm]
    rw [entities, e0, build_member hs, e1]
    have := entities_members hI hd r (ns ++ [d ++ s]) (fun e he => h1 e (List.mem_cons_of_mem _ he)) (fun k e hk => by
      have := h2 (k + 1) e hk
      rw [List.length_append, List.length_singleton]
      omega)
    rw [List.map_append] at this
    show (entities w _ (ns.map (Got.member J) ++ [d ++ s].map (Got.member J)) r).1 = _
    rw [this, List.map_cons, List.append_assoc]
    rfl

/-- what C83 asks in an archive: each entity beside the member that declares it -/
inductive Members : List Str → List (Nat × Str) → List Str → Prop
  | nil {ps : List Str} : Members ps [] ps
  | cons {ps qs : List Str} {i : Nat} {s p d f : Str} {r : List (Nat × Str)} : ps[i]? = some p → Splits p d f → Members (ps ++ [d ++ s]) r qs →
      Members ps ((i, s) :: r) qs

/-- The exact law for sources in archives: the entities, wherever they are declared, are read from beside the source -/
theorem C83_in_an_archive_entities_are_read_from_beside_the_source (w : World) (st : Reading) {J I d f : Str} {es : List (Nat × Str)} (hI : BANG ∉ I)
    (hx : w.expand (jar ++ J ++ BANG :: I) = jar ++ J ++ BANG :: I) (hd : Splits I d f) (h0 : w.member J I = true)
    (h1 : ∀ e ∈ es, Rel e.2 ∧ w.member J (d ++ e.2) = true) (h2 : ∀ k e, es[k]? = some e → e.1 < 1 + k) :
    (readDoc w st (jar ++ J ++ BANG :: I) es).1 = (I :: es.map fun e => d ++ e.2).map (.member J) := by
  have hz : fullPathsToZip w.expand (jar ++ J ++ BANG :: I) none = .ok ⟨jar ++ J ++ BANG :: I, J, I⟩ := by
    have := C54_archive_url w.expand J I none [] [] hI hx ⟨rfl, by simp, .inl rfl⟩
    rw [this, List.nil_append]
  have hj : startsWith (jar ++ J ++ BANG :: I) jar 0 = true := (starts_iff _ _).2 ⟨J ++ BANG :: I, by simp⟩
  have e1 : loader w ⟨some (jar ++ J ++ BANG :: I), true⟩ (jar ++ J ++ BANG :: I) = (.member J I, ⟨some (jar ++ J ++ BANG :: I), false⟩) := by
    unfold loader
    rw [Bool.not_true, Bool.false_and, if_neg (by decide)]
    simp only [hj, if_true, loadZip, hz, h0]
  rw [readDoc, e1]
  exact entities_members hI hd es [I] h1 (by simpa using h2)

theorem members_flat {d : Str} : ∀ {es : List (Nat × Str)} {ps : List Str}, (∀ p ∈ ps, ∃ f, Splits p d f) → (∀ e ∈ es, ∀ c ∈ e.2, ¬ Sep c) →
    (d = [] ∨ ∃ d' c, d = d' ++ [c] ∧ Sep c) → (∀ k e, es[k]? = some e → e.1 < ps.length + k) → Members ps es (ps ++ es.map fun e => d ++ e.2)
  | [], ps, _, _, _, _ => by simpa using Members.nil
  | (i, s) :: r, ps, h1, h2, h3, h4 => by
    have hi : i < ps.length := h4 0 _ rfl
    obtain ⟨f, hf⟩ := h1 _ (List.getElem_mem hi)
    refine Members.cons (List.getElem?_eq_getElem hi) hf ?_
    have := members_flat (d := d) (es := r) (ps := ps ++ [d ++ s]) (by
      intro p hp
      rcases List.mem_append.1 hp with hp | hp
      · exact h1 p hp
      · rw [List.mem_singleton.1 hp]
        exact ⟨s, rfl, h2 _ List.mem_cons_self, h3⟩) (fun e he => h2 e (List.mem_cons_of_mem _ he)) h3 (fun k e hk => by
          have := h4 (k + 1) e hk
          rw [List.length_append, List.length_singleton]; omega)
    rw [List.append_assoc] at this
    exact this

/-- **C83 (partial)**: entities of a source in an archive are read from beside the member that declares them, if all of them are in the directory of the source -/
theorem C83_entities_in_an_archive_partial (w : World) (st : Reading) {J I d f : Str} {es : List (Nat × Str)} (hI : BANG ∉ I)
    (hx : w.expand (jar ++ J ++ BANG :: I) = jar ++ J ++ BANG :: I) (hd : Splits I d f) (h0 : w.member J I = true)
    (h1 : ∀ e ∈ es, Rel e.2 ∧ (∀ c ∈ e.2, ¬ Sep c) ∧ w.member J (d ++ e.2) = true) (h2 : ∀ k e, es[k]? = some e → e.1 < 1 + k) :
    ∃ qs, Members [I] es qs ∧ (readDoc w st (jar ++ J ++ BANG :: I) es).1 = qs.map (.member J) :=
  ⟨_, members_flat (d := d) (by intro p hp; rw [List.mem_singleton.1 hp]; exact ⟨f, hd⟩) (fun e he => (h1 e he).2.1) hd.2.2 (by simpa using h2),
    C83_in_an_archive_entities_are_read_from_beside_the_source w st hI hx hd h0 (fun e he => ⟨(h1 e he).1, (h1 e he).2.2⟩) h2⟩

/-- **C83**: what is read does not depend on the readers made before, which of them are destroyed, and what they read -/
theorem C83_earlier_readers_do_not_matter (w w' : World) (st st' : Reading) (calls : List ReaderCall) (source : Str) (es : List (Nat × Str)) :
    readDoc w (runReaders w' st calls) source es = readDoc w st' source es := rfl

/-! ## A world -/
namespace EntityDemo

def w : World where
  isFile p := p ∈ [s "/h/c.hrc", s "/h/sub/c.dtd", s "/h/sub/k.ent", s "/home/u/my.ent", s "/h/k.ent"]
  member j n := decide (j = s "/h/a.jar") && decide (n ∈ [s "hrc/c.hrc", s "hrc/k.ent", s "hrc/sub/c.dtd", s "hrc/sub/k.ent", s "hrc/l.ent"])
  expand t := if t = s "env:$HOME/my.ent" then s "env:/home/u/my.ent" else t

/-- an entity in a subdirectory, one declared there, one from the environment -/
def es : List (Nat × Str) := [(0, s "sub/c.dtd"), (1, s "k.ent"), (1, s "env:$HOME/my.ent")]

theorem rel_of {t : Str} (h : (!t.contains COLON && t.head? != some SLASH) = true) : Rel t := by
  simp at h
  exact h

theorem demo_places : Places w [s "/h/c.hrc"] es [s "/h/c.hrc", s "/h/sub/c.dtd", s "/h/sub/k.ent", s "/home/u/my.ent"] := by
  refine .cons rfl (.beside (q := s "/h/sub/c.dtd") (rel_of (by decide)) ⟨s "/h/", s "c.hrc", by decide, by decide, .inr ⟨s "/h", by decide⟩, by decide⟩)
    (by decide) (.cons rfl (.beside (q := s "/h/sub/k.ent") (rel_of (by decide))
      ⟨s "/h/sub/", s "c.dtd", by decide, by decide, .inr ⟨s "/h/sub", by decide⟩, by decide⟩) (by decide)
    (.cons (q := s "/home/u/my.ent") rfl ?_ (by decide) .nil))
  exact Place.env (w := w) (p := s "/h/sub/c.dtd") (e := s "$HOME/my.ent") (r := s "home/u/my.ent") (by decide)

example : (readDoc w ⟨none, false⟩ (s "/h/c.hrc") es).1 = [.file (s "/h/c.hrc"), .file (s "/h/sub/c.dtd"), .file (s "/h/sub/k.ent"), .file (s "/home/u/my.ent")] := by
  rw [C83_entities_are_read_from_beside_their_declaration_partial w _ (by decide) (by decide) demo_places]
  rfl

/-- in the archive, entities in one directory -/
example : (readDoc w ⟨none, false⟩ (s "jar:/h/a.jar!hrc/c.hrc") [(0, s "k.ent"), (1, s "l.ent")]).1 =
    [.member (s "/h/a.jar") (s "hrc/c.hrc"), .member (s "/h/a.jar") (s "hrc/k.ent"), .member (s "/h/a.jar") (s "hrc/l.ent")] := by decide +kernel

example : Rel (s "k.ent") ∧ Splits (s "hrc/c.hrc") (s "hrc/") (s "c.hrc") := by
  refine ⟨rel_of (by decide), by decide, ?_, .inr ⟨s "hrc", SLASH, by decide, .inl rfl⟩⟩
  have : ∀ c ∈ s "c.hrc", c ≠ SLASH ∧ c ≠ BACKSLASH := by decide
  intro c hc hs
  rcases hs with h | h
  · exact (this c hc).1 h
  · exact (this c hc).2 h

/-- **C83 is violated** in archives: an entity declared in a file of a subdirectory is looked for beside the source; here another file is read -/
theorem C83_violated_nested_in_an_archive : (readDoc w ⟨none, false⟩ (s "jar:/h/a.jar!hrc/c.hrc") [(0, s "sub/c.dtd"), (1, s "k.ent")]).1 =
    [.member (s "/h/a.jar") (s "hrc/c.hrc"), .member (s "/h/a.jar") (s "hrc/sub/c.dtd"), .member (s "/h/a.jar") (s "hrc/k.ent")] ∧
    Members [s "hrc/c.hrc"] [(0, s "sub/c.dtd"), (1, s "k.ent")] [s "hrc/c.hrc", s "hrc/sub/c.dtd", s "hrc/sub/k.ent"] := by
  refine ⟨by decide +kernel, ?_⟩
  have ns : ∀ t, (∀ c ∈ s t, c ≠ SLASH ∧ c ≠ BACKSLASH) → ∀ c ∈ s t, ¬ Sep c := fun t h c hc hs => hs.elim (h c hc).1 (h c hc).2
  exact .cons (d := s "hrc/") (f := s "c.hrc") rfl ⟨by decide, ns _ (by decide), .inr ⟨s "hrc", SLASH, by decide, .inl rfl⟩⟩
    (.cons (d := s "hrc/sub/") (f := s "c.dtd") rfl ⟨by decide, ns _ (by decide), .inr ⟨s "hrc/sub", SLASH, by decide, .inl rfl⟩⟩ .nil)

/-- **C83 is violated** in archives: an entity of the environment, a file on the disk, is looked for in the archive -/
theorem C83_violated_environment_in_an_archive : (readDoc w ⟨none, false⟩ (s "jar:/h/a.jar!hrc/c.hrc") [(0, s "env:$HOME/my.ent")]).1 =
    [.member (s "/h/a.jar") (s "hrc/c.hrc"), .nothing] ∧ w.isFile (s "/home/u/my.ent") = true := by decide +kernel

/-- **C83 is violated** by an entity "jar:" without '!': the exception leaves the loader through libxml2 -/
theorem C83_violated_exception : (readDoc w ⟨none, false⟩ (s "/h/c.hrc") [(0, s "jar:a.jar")]).1 = [.file (s "/h/c.hrc"), .throws] := by decide +kernel

end EntityDemo
end Verif.Io
