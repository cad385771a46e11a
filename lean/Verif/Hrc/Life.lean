import Verif.Hrc.Model
/-!
# C88: how long a file type lives

Models, with the objects: `unloadFileType` (/repo/src/colorer/parsers/HrcLibraryImpl.cpp 52-73), `loadFileType` (75-104), `enumerateFileTypes` (141-147),
`parseHRC` (176-209), `parseHrcBlock` (211-228), `addPrototype` (230-260), `addType` (347-384), the loads out of `qualifyForeignName` (943-1000), and
`ConsoleTools::listTypes` (/repo/tools/colorer/ConsoleTools.cpp 151-184).

Every `FileType` is an object with a number; `unloadFileType` deletes it. Using a deleted object (`uaf`) is undefined. A source is reduced to its
prototypes (whether the place it names can be opened: otherwise the constructor throws after the old type has been unloaded) and its types with the
names of the types they refer to, in the order of reading. What the types contain is the subject of the other files of this directory. `updateLinks`,
which reads the references that are left, loads types like the references do: they stand among them.
-/
namespace Verif.Hrc.Life

/-- a child of `<hrc>` -/
inductive Child where
  /-- `<prototype>`, `<package>`: the name, the place of its source; `opens = false`: the place cannot be opened -/
  | proto (pkg : Bool) (name : Name) (link : Option Nat) (opens : Bool)
  /-- `<type>`, with the types it refers to -/
  | type (name : Name) (refs : List Name)
deriving DecidableEq, Repr

/-- a `FileType` -/
structure Ft where
  id : Nat
  name : Name
  link : Option Nat
  /-- `type_loading`, `input_source_loading`, `load_broken` -/
  started : Bool
  busy : Bool
  broken : Bool
deriving DecidableEq, Repr

/-- the objects that live are those of `fileTypeHash`; `listed` is `fileTypeVector`, `next` the number of the next object -/
structure S where
  types : List Ft
  listed : List Nat
  next : Nat
deriving DecidableEq, Repr

def S.empty : S := ⟨[], [], 0⟩

/-- use of an object; `none`: it was deleted -/
def S.get (s : S) (id : Nat) : Option Ft := s.types.find? (·.id = id)

/-- `fileTypeHash.find(name)` -/
def S.find (s : S) (n : Name) : Option Ft := s.types.find? (·.name = n)

def S.set (s : S) (id : Nat) (g : Ft → Ft) : S := { s with types := s.types.map fun f => if f.id = id then g f else f }

/-- how a call ends: `threw`: with an exception; `deep`: more nested calls than the bound -/
inductive R where
  | ok (s : S) (threw : Bool) | uaf | deep
deriving DecidableEq, Repr

/-- `unloadFileType` -/
def S.unload (s : S) (f : Ft) : S := { s with types := s.types.filter (·.id ≠ f.id), listed := s.listed.erase f.id }

def S.forget (s : S) (n : Name) : S := match s.find n with
  | none => s
  | some f => s.unload f

/-- the new object in its tables (245-259) -/
def S.register (s : S) (pkg : Bool) (n : Name) (link : Option Nat) : S :=
  ⟨s.types ++ [⟨s.next, n, link, false, false, false⟩], if pkg then s.listed else s.listed ++ [s.next], s.next + 1⟩

/-- `addPrototype`; names are not empty -/
def addProto (s : S) (pkg : Bool) (n : Name) (link : Option Nat) (opens : Bool) : R :=
  if opens then .ok ((s.forget n).register pkg n link) false else .ok { s.forget n with next := s.next + 1 } true

/-- the references of a type (`cur`): each loads the type it names (964-966), and looks at it (967) and at the type being read (973) afterwards -/
def refs (loadF : S → Nat → R) (cur : Nat) : List Name → S → R
  | [], s => .ok s false
  | n :: r, s => match s.find n with
    | none => refs loadF cur r s
    | some f => match loadF s f.id with
      | .ok s1 _ => if (s1.get f.id).isSome && (s1.get cur).isSome then refs loadF cur r s1 else .uaf
      | .uaf => .uaf
      | .deep => .deep

/-- `addType` (347-384); at its end the type is written to -/
def addType (loadF : S → Nat → R) (s : S) (n : Name) (rs : List Name) : R := match s.find n with
  | none => .ok s false
  | some f => if f.started then .ok s false
    else match refs loadF f.id rs (s.set f.id fun g => { g with started := true }) with
      | .ok s1 t => if (s1.get f.id).isSome then .ok s1 t else .uaf
      | .uaf => .uaf
      | .deep => .deep

/-- `parseHrcBlock`; an exception ends it -/
def children (loadF : S → Nat → R) : List Child → S → R
  | [], s => .ok s false
  | .proto pkg n link opens :: r, s => match addProto s pkg n link opens with
    | .ok s1 false => children loadF r s1
    | .ok s1 true => .ok s1 true
    | .uaf => .uaf
    | .deep => .deep
  | .type n rs :: r, s => match addType loadF s n rs with
    | .ok s1 _ => children loadF r s1
    | .uaf => .uaf
    | .deep => .deep

/-- `loadFileType` (75-104): the source, the exceptions it swallows, and the object again (91-103) -/
def load (src : Nat → Option (List Child)) : Nat → S → Nat → R
  | 0, _, _ => .deep
  | fuel + 1, s, id => match s.get id with
    | none => .uaf
    | some f => if f.started || f.busy || f.broken then .ok s false
      else match f.link.bind src with
        | none => .ok (s.set id fun g => { g with broken := true }) false
        | some kids => match children (load src fuel) kids (s.set id fun g => { g with busy := true }) with
          | .ok s1 threw => if (s1.get id).isSome then .ok (s1.set id fun g => { g with busy := false, broken := g.broken || threw }) false else .uaf
          | .uaf => .uaf
          | .deep => .deep

/-- what a program does: it reads a source (`loadCatalog`, `loadHrcPath`), it loads a type found by name (`getFileType`) or by number
(`enumerateFileTypes`), or one it holds a pointer to -/
inductive Op where
  | source (kids : List Child)
  | byName (n : Name)
  | byIndex (i : Nat)
  | held (id : Nat)

def step (src : Nat → Option (List Child)) (fuel : Nat) (s : S) : Op → R
  | .source kids => children (load src fuel) kids s
  | .byName n => match s.find n with
    | none => .ok s false
    | some f => load src fuel s f.id
  | .byIndex i => match s.listed[i]? with
    | none => .ok s false
    | some id => load src fuel s id
  | .held id => load src fuel s id

/-- the exceptions of `loadSource` are caught by the callers (ParserFactoryImpl.cpp 56-58, 64-69) -/
def steps (src : Nat → Option (List Child)) (fuel : Nat) : S → List Op → R
  | s, [] => .ok s false
  | s, o :: r => match step src fuel s o with
    | .ok s1 _ => steps src fuel s1 r
    | .uaf => .uaf
    | .deep => .deep

/-- `listTypes` (157-178): `n` rounds at most; what is printed, and how it ended. `enumerateFileTypes` looks the index up anew every time. -/
def list (src : Nat → Option (List Child)) (fuel : Nat) (doLoad : Bool) : Nat → Nat → S → List Name × R
  | 0, _, _ => ([], .deep)
  | n + 1, idx, s => match s.listed[idx]? with
    | none => ([], .ok s false)
    | some id => match s.get id with
      | none => ([], .uaf)
      | some f =>
        if doLoad then match load src fuel s id with
          | .ok s1 _ => (f.name :: (list src fuel doLoad n (idx + 1) s1).1, (list src fuel doLoad n (idx + 1) s1).2)
          | .uaf => ([f.name], .uaf)
          | .deep => ([f.name], .deep)
        else (f.name :: (list src fuel doLoad n (idx + 1) s).1, (list src fuel doLoad n (idx + 1) s).2)

/-! ## Specification -/

/-- the prototypes of a source -/
def Child.declares : Child → Option Name
  | .proto _ n _ _ => some n
  | .type _ _ => none

/-- the sources of the types declare no prototypes -/
def PlainSources (src : Nat → Option (List Child)) : Prop := ∀ p kids, src p = some kids → ∀ k ∈ kids, k.declares = none

/-- the prototypes a program reads -/
def Op.declares : Op → List Name
  | .source kids => kids.filterMap Child.declares
  | .byName _ => []
  | .byIndex _ => []
  | .held _ => []

/-- the program uses no pointer it kept -/
def Op.fresh : Op → Prop
  | .held _ => False
  | .source _ => True
  | .byName _ => True
  | .byIndex _ => True

/-- what is seen of an object -/
def Ft.seen (f : Ft) : Nat × Name × Option Nat := (f.id, f.name, f.link)

/-! ## Proofs -/

/-- the objects have different numbers and names; what is listed lives -/
structure Inv (s : S) : Prop where
  ids : (s.types.map (·.id)).Nodup
  names : (s.types.map (·.name)).Nodup
  small : ∀ f ∈ s.types, f.id < s.next
  listed : ∀ id ∈ s.listed, ∃ f ∈ s.types, f.id = id
  once : s.listed.Nodup

/-- what a load leaves as it is -/
def Ft.key (f : Ft) : Nat × Name × Option Nat × Bool := (f.id, f.name, f.link, f.busy)

/-- it has been tried to load the type: it is there, or its source is broken -/
def Tried (s : S) (id : Nat) : Prop := ∃ f ∈ s.types, f.id = id ∧ (f.started || f.broken) = true

/-- nothing but `type_loading` and `load_broken` has changed, and those were only set -/
structure Same (s s' : S) : Prop where
  keys : s'.types.map Ft.key = s.types.map Ft.key
  listed : s'.listed = s.listed
  next : s'.next = s.next
  tried : ∀ id, Tried s id → Tried s' id

theorem Same.refl (s : S) : Same s s := ⟨rfl, rfl, rfl, fun _ h => h⟩
theorem Same.trans {a b c : S} (h : Same a b) (h' : Same b c) : Same a c :=
  ⟨h'.keys.trans h.keys, h'.listed.trans h.listed, h'.next.trans h.next, fun id hi => h'.tried id (h.tried id hi)⟩

theorem tried_set (s : S) (id : Nat) (g : Ft → Ft) (hg : ∀ f, (g f).id = f.id) (ht : ∀ f, (f.started || f.broken) = true → ((g f).started || (g f).broken) = true)
    (k : Nat) (h : Tried s k) : Tried (s.set id g) k := by
  obtain ⟨f, hf, e, hs⟩ := h
  by_cases h : f.id = id
  · exact ⟨g f, List.mem_map.2 ⟨f, hf, if_pos h⟩, (hg f).trans e, ht f hs⟩
  · exact ⟨f, List.mem_map.2 ⟨f, hf, if_neg h⟩, e, hs⟩

theorem same_set (s : S) (id : Nat) (g : Ft → Ft) (hg : ∀ f, (g f).key = f.key)
    (ht : ∀ f, (f.started || f.broken) = true → ((g f).started || (g f).broken) = true) : Same s (s.set id g) := by
  refine ⟨?_, rfl, rfl, tried_set s id g (fun f => congrArg Prod.fst (hg f)) ht⟩
  show (s.types.map fun f => if f.id = id then g f else f).map Ft.key = _
  rw [List.map_map]
  refine List.map_congr_left fun f _ => ?_
  show (if f.id = id then g f else f).key = f.key
  by_cases h : f.id = id
  · rw [if_pos h, hg]
  · rw [if_neg h]

theorem get_key {s : S} {id : Nat} : (s.get id).map Ft.key = (s.types.map Ft.key).find? (·.1 = id) := by
  unfold S.get
  rw [List.find?_map]
  rfl

theorem Same.get {s s' : S} (h : Same s s') (id : Nat) : (s'.get id).map Ft.key = (s.get id).map Ft.key := by
  rw [get_key, get_key, h.keys]

theorem Same.alive {s s' : S} (h : Same s s') {id : Nat} (hi : (s.get id).isSome) : (s'.get id).isSome := by
  have := congrArg Option.isSome (h.get id)
  rw [Option.isSome_map, Option.isSome_map] at this
  rw [this]; exact hi

theorem ids_key (s : S) : s.types.map (·.id) = (s.types.map Ft.key).map (·.1) := by rw [List.map_map]; rfl
theorem names_key (s : S) : s.types.map (·.name) = (s.types.map Ft.key).map (·.2.1) := by rw [List.map_map]; rfl
theorem seen_key (s : S) : s.types.map Ft.seen = (s.types.map Ft.key).map (fun k => (k.1, k.2.1, k.2.2.1)) := by rw [List.map_map]; rfl

/-- the types not being loaded -/
def free (s : S) : Nat := s.types.countP fun f => !f.busy

theorem free_key (s : S) : free s = (s.types.map Ft.key).countP (fun k => !k.2.2.2) := by
  unfold free
  rw [List.countP_map]
  rfl

theorem Same.free {s s' : S} (h : Same s s') : free s' = free s := by rw [free_key, free_key, h.keys]
theorem Same.ids {s s' : S} (h : Same s s') (hn : (s.types.map (·.id)).Nodup) : (s'.types.map (·.id)).Nodup := by
  rw [ids_key, h.keys, ← ids_key]; exact hn

theorem mem_key {s s' : S} (h : Same s s') {f : Ft} (hf : f ∈ s'.types) : ∃ g ∈ s.types, g.key = f.key := by
  have : f.key ∈ s.types.map Ft.key := by rw [← h.keys]; exact List.mem_map_of_mem hf
  obtain ⟨g, hg, e⟩ := List.mem_map.1 this
  exact ⟨g, hg, e⟩

theorem mem_key' {s s' : S} (h : Same s s') {f : Ft} (hf : f ∈ s.types) : ∃ g ∈ s'.types, g.key = f.key := by
  have : f.key ∈ s'.types.map Ft.key := by rw [h.keys]; exact List.mem_map_of_mem hf
  obtain ⟨g, hg, e⟩ := List.mem_map.1 this
  exact ⟨g, hg, e⟩

theorem Same.inv {s s' : S} (h : Same s s') (hi : Inv s) : Inv s' := by
  refine ⟨h.ids hi.ids, ?_, ?_, ?_, by rw [h.listed]; exact hi.once⟩
  · rw [names_key, h.keys, ← names_key]; exact hi.names
  · intro f hf
    obtain ⟨g, hg, e⟩ := mem_key h hf
    have := hi.small g hg
    have e1 : g.id = f.id := congrArg Prod.fst e
    rw [h.next, ← e1]
    exact this
  · intro id hid
    rw [h.listed] at hid
    obtain ⟨g, hg, e⟩ := hi.listed id hid
    obtain ⟨f, hf, e2⟩ := mem_key' h hg
    exact ⟨f, hf, (congrArg Prod.fst e2 : f.id = g.id).trans e⟩

theorem find_alive {s : S} {n : Name} {f : Ft} (h : s.find n = some f) : (s.get f.id).isSome := by
  unfold S.get
  rw [List.find?_isSome]
  exact ⟨f, List.mem_of_find?_eq_some h, by simp⟩

theorem get_mem {s : S} {id : Nat} {f : Ft} (h : s.get id = some f) : f ∈ s.types ∧ f.id = id :=
  ⟨List.mem_of_find?_eq_some h, by have := List.find?_some h; simpa using this⟩

theorem nodup_eq {l : List Ft} (hn : (l.map (·.id)).Nodup) : ∀ {f g : Ft}, f ∈ l → g ∈ l → f.id = g.id → f = g := by
  induction l with
  | nil => intro f g hf; cases hf
  | cons a l ih =>
    intro f g hf hg h
    rw [List.map_cons, List.nodup_cons] at hn
    rcases List.mem_cons.1 hf with e1 | e1 <;> rcases List.mem_cons.1 hg with e2 | e2
    · rw [e1, e2]
    · exact absurd (List.mem_map.2 ⟨g, e2, by rw [← h, e1]⟩) hn.1
    · exact absurd (List.mem_map.2 ⟨f, e1, by rw [h, e2]⟩) hn.1
    · exact ih hn.2 e1 e2 h

theorem countP_set (l : List Ft) (id : Nat) : (l.map fun f => if f.id = id then { f with busy := true } else f).countP (fun f => !f.busy) ≤
    l.countP fun f => !f.busy := by
  induction l with
  | nil => exact Nat.le_refl 0
  | cons a l ih =>
    rw [List.map_cons, List.countP_cons, List.countP_cons]
    by_cases h : a.id = id
    · rw [if_pos h]
      simp only [Bool.not_true, Bool.false_eq_true, if_false]
      omega
    · rw [if_neg h]; omega

theorem countP_less (l : List Ft) (id : Nat) (f : Ft) (hf : f ∈ l) (hi : f.id = id) (hb : f.busy = false) :
    (l.map fun f => if f.id = id then { f with busy := true } else f).countP (fun f => !f.busy) < l.countP fun f => !f.busy := by
  induction l with
  | nil => cases hf
  | cons a l ih =>
    rw [List.map_cons, List.countP_cons, List.countP_cons]
    by_cases h : a.id = id
    · rw [if_pos h]
      have := countP_set l id
      simp only [Bool.not_true, Bool.false_eq_true, if_false]
      rcases List.mem_cons.1 hf with e | e
      · rw [← e, hb]
        simp only [Bool.not_false, if_true]
        omega
      · have := ih e
        omega
    · rw [if_neg h]
      rcases List.mem_cons.1 hf with e | e
      · rw [← e] at h; exact absurd hi h
      · have := ih e
        omega

/-- a load that ends keeps everything but those flags -/
def Calm (s : S) : R → Prop
  | .ok s' _ => Same s s'
  | .uaf => False
  | .deep => False

/-- room for further loads -/
def Room (fuel : Nat) (s : S) : Prop := (s.types.map (·.id)).Nodup ∧ free s < fuel

theorem Same.room {s s' : S} {fuel : Nat} (h : Same s s') (hr : Room fuel s) : Room fuel s' := ⟨h.ids hr.1, by rw [h.free]; exact hr.2⟩

/-- what is assumed about a loader -/
def Loads (fuel : Nat) (loadF : S → Nat → R) : Prop := ∀ s id, Room fuel s → (s.get id).isSome → Calm s (loadF s id)

theorem refs_calm {fuel : Nat} {loadF : S → Nat → R} (hl : Loads fuel loadF) (cur : Nat) (ns : List Name) : ∀ s, Room fuel s → (s.get cur).isSome →
    Calm s (refs loadF cur ns s) := by
  induction ns with
  | nil => intro s _ _; exact Same.refl s
  | cons n ns ih =>
    intro s hroom hc
    rw [refs]
    cases hf : s.find n with
    | none => exact ih s hroom hc
    | some f =>
      dsimp only
      have hfa := find_alive hf
      have := hl s f.id hroom hfa
      cases hr : loadF s f.id with
      | uaf => rw [hr] at this; exact this
      | deep => rw [hr] at this; exact this
      | ok s1 t =>
        rw [hr] at this
        dsimp only
        rw [if_pos (by rw [Same.alive this hfa, Same.alive this hc]; rfl)]
        have h2 := ih s1 (Same.room this hroom) (Same.alive this hc)
        cases h3 : refs loadF cur ns s1 with
        | uaf => rw [h3] at h2; exact h2
        | deep => rw [h3] at h2; exact h2
        | ok s2 t => rw [h3] at h2; exact Same.trans this h2

theorem addType_calm {fuel : Nat} {loadF : S → Nat → R} (hl : Loads fuel loadF) (s : S) (hroom : Room fuel s) (n : Name) (rs : List Name) :
    Calm s (addType loadF s n rs) := by
  unfold addType
  cases hf : s.find n with
  | none => exact Same.refl s
  | some f =>
    dsimp only
    by_cases hs : f.started = true
    · rw [if_pos hs]; exact Same.refl s
    · rw [if_neg hs]
      have h1 : Same s (s.set f.id fun g => { g with started := true }) := same_set _ _ _ (fun _ => rfl) fun _ _ => rfl
      have ha := Same.alive h1 (find_alive hf)
      have h2 := refs_calm hl f.id rs _ (Same.room h1 hroom) ha
      cases hr : refs loadF f.id rs (s.set f.id fun g => { g with started := true }) with
      | uaf => rw [hr] at h2; exact h2
      | deep => rw [hr] at h2; exact h2
      | ok s1 t =>
        rw [hr] at h2
        dsimp only
        rw [if_pos (Same.alive h2 ha)]
        exact Same.trans h1 h2

theorem children_calm {fuel : Nat} {loadF : S → Nat → R} (hl : Loads fuel loadF) (kids : List Child)
    (hk : ∀ k ∈ kids, k.declares = none) : ∀ s, Room fuel s → Calm s (children loadF kids s) := by
  induction kids with
  | nil => intro s _; exact Same.refl s
  | cons k kids ih =>
    intro s hroom
    cases k with
    | proto pkg n link opens => exact absurd (hk (.proto pkg n link opens) (by simp)) (by simp [Child.declares])
    | type n rs =>
      rw [children]
      have h1 := addType_calm hl s hroom n rs
      cases hr : addType loadF s n rs with
      | uaf => rw [hr] at h1; exact h1
      | deep => rw [hr] at h1; exact h1
      | ok s1 t =>
        rw [hr] at h1
        have h2 := ih (fun k hk' => hk k (List.mem_cons_of_mem _ hk')) s1 (Same.room h1 hroom)
        dsimp only
        cases h3 : children loadF kids s1 with
        | uaf => rw [h3] at h2; exact h2
        | deep => rw [h3] at h2; exact h2
        | ok s2 t => rw [h3] at h2; exact Same.trans h1 h2

/-- `busy` set and cleared again -/
theorem same_busy {s s1 : S} {id : Nat} {f : Ft} (hn : (s.types.map (·.id)).Nodup) (hg : s.get id = some f) (hb : f.busy = false)
    (h : Same (s.set id fun g => { g with busy := true }) s1) (t : Bool) : Same s (s1.set id fun g => { g with busy := false, broken := g.broken || t }) := by
  obtain ⟨hm, hi⟩ := get_mem hg
  refine ⟨?_, h.listed, h.next, fun k hk => tried_set s1 id (fun g => { g with busy := false, broken := g.broken || t }) (fun _ => rfl) ?_ k
    (h.tried k (tried_set s id (fun g => { g with busy := true }) (fun _ => rfl) (fun _ h => h) k hk))⟩
  rotate_left
  · intro f hf
    show (f.started || (f.broken || t)) = true
    cases h1 : f.started
    · rw [h1] at hf
      have : f.broken = true := hf
      rw [this]; rfl
    · rfl
  have e1 : (s1.set id fun g => { g with busy := false, broken := g.broken || t }).types.map Ft.key =
      (s1.types.map Ft.key).map fun k => if k.1 = id then (k.1, k.2.1, k.2.2.1, false) else k := by
    show (s1.types.map _).map Ft.key = _
    rw [List.map_map, List.map_map]
    refine List.map_congr_left fun g _ => ?_
    show (if g.id = id then { g with busy := false, broken := g.broken || t } else g).key = if g.id = id then _ else _
    by_cases h : g.id = id
    · rw [if_pos h, if_pos h]; rfl
    · rw [if_neg h, if_neg h]
  rw [e1, h.keys]
  show ((s.types.map _).map Ft.key).map _ = _
  rw [List.map_map, List.map_map]
  refine List.map_congr_left fun g hgm => ?_
  dsimp only [Function.comp_apply]
  by_cases h : g.id = id
  · have e : g = f := nodup_eq hn hgm hm (h.trans hi.symm)
    rw [if_pos h]
    rw [if_pos (show (Ft.key { g with busy := true }).1 = id from h)]
    show (g.id, g.name, g.link, false) = (g.id, g.name, g.link, g.busy)
    rw [e, hb]
  · rw [if_neg h]
    rw [if_neg (show ¬ g.key.1 = id from h)]

theorem load_calm {src : Nat → Option (List Child)} (hp : PlainSources src) (fuel : Nat) : Loads fuel (load src fuel) := by
  induction fuel with
  | zero => intro s id hr _; exact absurd hr.2 (Nat.not_lt_zero _)
  | succ fuel ih =>
    intro s id hroom hi
    rw [load]
    cases hg : s.get id with
    | none => rw [hg] at hi; cases hi
    | some f =>
      dsimp only
      by_cases hfl : (f.started || f.busy || f.broken) = true
      · rw [if_pos hfl]; exact Same.refl s
      · rw [if_neg hfl]
        have hb : f.busy = false := by
          cases hb : f.busy
          · rfl
          · rw [hb] at hfl; simp at hfl
        cases hk : f.link.bind src with
        | none => exact same_set s id _ (fun _ => rfl) fun f _ => Bool.or_true _
        | some kids =>
          dsimp only
          obtain ⟨hm, hid⟩ := get_mem hg
          have hpl : ∀ k ∈ kids, k.declares = none := by
            cases hl : f.link with
            | none => rw [hl] at hk; cases hk
            | some p => rw [hl] at hk; exact hp p kids hk
          have hroom2 : Room fuel (s.set id fun g => { g with busy := true }) := by
            refine ⟨?_, ?_⟩
            · have : (s.set id fun g => { g with busy := true }).types.map (·.id) = s.types.map (·.id) := by
                show (s.types.map _).map _ = _
                rw [List.map_map]
                refine List.map_congr_left fun g _ => ?_
                show (if g.id = id then { g with busy := true } else g).id = g.id
                by_cases h : g.id = id
                · rw [if_pos h]
                · rw [if_neg h]
              rw [this]; exact hroom.1
            · have h1 : free (s.set id fun g => { g with busy := true }) < free s := countP_less s.types id f hm hid hb
              have h2 := hroom.2
              omega
          have h2 := children_calm ih kids hpl _ hroom2
          cases hr : children (load src fuel) kids (s.set id fun g => { g with busy := true }) with
          | uaf => rw [hr] at h2; exact h2
          | deep => rw [hr] at h2; exact h2
          | ok s1 t =>
            rw [hr] at h2
            dsimp only
            have h3 := same_busy hroom.1 hg hb h2 t
            have ha : (s1.get id).isSome := by
              refine Same.alive h2 ?_
              unfold S.get
              rw [List.find?_isSome]
              refine ⟨{ f with busy := true }, ?_, by simpa using hid⟩
              refine List.mem_map.2 ⟨f, hm, ?_⟩
              rw [if_pos hid]
            rw [if_pos ha]
            exact h3

/-! ### Prototypes -/

theorem empty_inv : Inv S.empty := ⟨List.nodup_nil, List.nodup_nil, fun f hf => (by cases hf), fun id hid => (by cases hid), List.nodup_nil⟩

theorem unload_inv {s : S} (hi : Inv s) (f : Ft) : Inv (s.unload f) := by
  refine ⟨?_, ?_, ?_, ?_, ?_⟩
  · exact List.Nodup.sublist (List.Sublist.map _ List.filter_sublist) hi.ids
  · exact List.Nodup.sublist (List.Sublist.map _ List.filter_sublist) hi.names
  · intro g hg
    exact hi.small g (List.mem_filter.1 hg).1
  · intro id hid
    have h1 := (List.Nodup.mem_erase_iff hi.once).1 hid
    obtain ⟨g, hg, e⟩ := hi.listed id h1.2
    refine ⟨g, List.mem_filter.2 ⟨hg, ?_⟩, e⟩
    rw [decide_eq_true_eq, e]
    exact h1.1
  · exact hi.once.erase _

theorem name_eq {l : List Ft} (hn : (l.map (·.name)).Nodup) : ∀ {f g : Ft}, f ∈ l → g ∈ l → f.name = g.name → f = g := by
  induction l with
  | nil => intro f g hf; cases hf
  | cons a l ih =>
    intro f g hf hg h
    rw [List.map_cons, List.nodup_cons] at hn
    rcases List.mem_cons.1 hf with e1 | e1 <;> rcases List.mem_cons.1 hg with e2 | e2
    · rw [e1, e2]
    · exact absurd (List.mem_map.2 ⟨g, e2, by rw [← h, e1]⟩) hn.1
    · exact absurd (List.mem_map.2 ⟨f, e1, by rw [h, e2]⟩) hn.1
    · exact ih hn.2 e1 e2 h

theorem find_mem {s : S} {n : Name} {f : Ft} (h : s.find n = some f) : f ∈ s.types ∧ f.name = n :=
  ⟨List.mem_of_find?_eq_some h, by have := List.find?_some h; simpa using this⟩

/-- after an older type of the name was unloaded -/
theorem forget_inv {s : S} (hi : Inv s) (n : Name) : Inv (s.forget n) ∧ (s.forget n).next = s.next ∧ (s.forget n).types.length ≤ s.types.length ∧
    (∀ f ∈ (s.forget n).types, f.name ≠ n) ∧ (∀ f ∈ s.types, f.name ≠ n → f ∈ (s.forget n).types) ∧ ∀ f ∈ (s.forget n).types, f ∈ s.types := by
  unfold S.forget
  cases hf : s.find n with
  | none =>
    refine ⟨hi, rfl, Nat.le_refl _, fun f hm e => ?_, fun f hm _ => hm, fun f hm => hm⟩
    have := List.find?_eq_none.1 hf f hm
    rw [decide_eq_true_eq] at this
    exact this e
  | some g =>
    obtain ⟨hg, hn⟩ := find_mem hf
    refine ⟨unload_inv hi g, rfl, List.length_filter_le _ _, fun f hm e => ?_, fun f hm hne => ?_, fun f hm => (List.mem_filter.1 hm).1⟩
    · obtain ⟨h1, h2⟩ := List.mem_filter.1 hm
      rw [decide_eq_true_eq] at h2
      exact h2 (by rw [name_eq hi.names h1 hg (e.trans hn.symm)])
    · refine List.mem_filter.2 ⟨hm, ?_⟩
      rw [decide_eq_true_eq]
      intro e
      exact hne (by rw [nodup_eq hi.ids hm hg e]; exact hn)

theorem nodup_snoc {α : Type} {l : List α} {a : α} (h : l.Nodup) (ha : a ∉ l) : (l ++ [a]).Nodup := by
  rw [List.nodup_append]
  refine ⟨h, List.nodup_cons.2 ⟨by simp, List.nodup_nil⟩, ?_⟩
  intro x hx y hy e
  rw [List.mem_singleton.1 hy] at e
  exact ha (e ▸ hx)

theorem register_inv {s : S} (hi : Inv s) (pkg : Bool) (n : Name) (link : Option Nat) (hn : ∀ f ∈ s.types, f.name ≠ n) : Inv (s.register pkg n link) := by
  have hid : s.next ∉ s.types.map (·.id) := by
    intro h
    obtain ⟨f, hf, e⟩ := List.mem_map.1 h
    have := hi.small f hf
    omega
  refine ⟨?_, ?_, ?_, ?_, ?_⟩
  · show ((s.types ++ [(⟨s.next, n, link, false, false, false⟩ : Ft)]).map (·.id)).Nodup
    rw [List.map_append]
    exact nodup_snoc hi.ids hid
  · show ((s.types ++ [(⟨s.next, n, link, false, false, false⟩ : Ft)]).map (·.name)).Nodup
    rw [List.map_append]
    refine nodup_snoc hi.names fun h => ?_
    obtain ⟨f, hf, e⟩ := List.mem_map.1 h
    exact hn f hf e
  · intro f hf
    show f.id < s.next + 1
    rcases List.mem_append.1 hf with h | h
    · have := hi.small f h; omega
    · rw [List.mem_singleton.1 h]; exact Nat.lt_succ_self _
  · intro id hid'
    have : id ∈ s.listed ∨ id = s.next := by
      cases pkg with
      | true => exact .inl hid'
      | false =>
        rcases List.mem_append.1 (show id ∈ s.listed ++ [s.next] from hid') with h | h
        · exact .inl h
        · exact .inr (List.mem_singleton.1 h)
    rcases this with h | h
    · obtain ⟨f, hf, e⟩ := hi.listed id h
      exact ⟨f, List.mem_append_left _ hf, e⟩
    · exact ⟨_, List.mem_append_right _ (List.mem_singleton.2 rfl), h.symm⟩
  · cases pkg with
    | true => exact hi.once
    | false =>
      show (s.listed ++ [s.next]).Nodup
      refine nodup_snoc hi.once fun h => ?_
      obtain ⟨f, hf, e⟩ := hi.listed _ h
      have := hi.small f hf
      omega

/-- what reading a source does to the types: it ends, and keeps all types it does not declare again -/
structure Kept (s s' : S) (declared : List Name) : Prop where
  inv : Inv s'
  size : s'.types.length ≤ s.types.length + declared.length
  keeps : ∀ f ∈ s.types, f.name ∉ declared → ∃ g ∈ s'.types, g.seen = f.seen
  idle : (∀ f ∈ s.types, f.busy = false) → ∀ f ∈ s'.types, f.busy = false

theorem Kept.refl {s : S} (hi : Inv s) : Kept s s [] := ⟨hi, Nat.le_refl _, fun f hf _ => ⟨f, hf, rfl⟩, fun h => h⟩

theorem Kept.trans {s s1 s2 : S} {d d' : List Name} (h : Kept s s1 d) (h' : Kept s1 s2 d') : Kept s s2 (d ++ d') := by
  refine ⟨h'.inv, ?_, ?_, fun h0 => h'.idle (h.idle h0)⟩
  · have h1 := h.size
    have h2 := h'.size
    rw [List.length_append]; omega
  · intro f hf hn
    rw [List.mem_append, not_or] at hn
    obtain ⟨g, hg, e⟩ := h.keeps f hf hn.1
    have : g.name = f.name := congrArg (fun x => x.2.1) e
    obtain ⟨g', hg', e'⟩ := h'.keeps g hg (by rw [this]; exact hn.2)
    exact ⟨g', hg', e'.trans e⟩

theorem Same.kept {s s' : S} (h : Same s s') (hi : Inv s) : Kept s s' [] := by
  refine ⟨h.inv hi, ?_, fun f hf _ => ?_, fun h0 f hf => ?_⟩
  rotate_left 2
  · obtain ⟨g, hg, e⟩ := mem_key h hf
    exact (congrArg (fun k => k.2.2.2) e : g.busy = f.busy).symm.trans (h0 g hg)
  · have := congrArg List.length h.keys
    rw [List.length_map, List.length_map] at this
    rw [this]; exact Nat.le_refl _
  · obtain ⟨g, hg, e⟩ := mem_key' h hf
    exact ⟨g, hg, by rw [show g.seen = (g.key.1, g.key.2.1, g.key.2.2.1) from rfl, e]; rfl⟩

theorem free_le (s : S) : free s ≤ s.types.length := List.countP_le_length

theorem addProto_kept {s : S} (hi : Inv s) (pkg : Bool) (n : Name) (link : Option Nat) (opens : Bool) :
    ∃ s', addProto s pkg n link opens = .ok s' (!opens) ∧ Kept s s' [n] := by
  obtain ⟨h1, h2, h3, h4, h5, h6⟩ := forget_inv hi n
  unfold addProto
  cases opens with
  | true =>
    refine ⟨_, rfl, register_inv h1 pkg n link h4, ?_, fun f hf hn => ?_, fun h0 f hf => ?_⟩
    · show ((s.forget n).types ++ [_]).length ≤ _
      rw [List.length_append]
      exact Nat.add_le_add_right h3 1
    · exact ⟨f, List.mem_append_left _ (h5 f hf fun e => hn (by rw [e]; simp)), rfl⟩
    · rcases List.mem_append.1 hf with h | h
      · exact h0 f (h6 f h)
      · rw [List.mem_singleton.1 h]
  | false =>
    refine ⟨_, rfl, ⟨h1.ids, h1.names, fun f hf => ?_, h1.listed, h1.once⟩, Nat.le_trans h3 (Nat.le_succ _), fun f hf hn => ?_,
      fun h0 f hf => h0 f (h6 f hf)⟩
    · have := h1.small f hf
      rw [h2] at this
      exact Nat.lt_succ_of_lt this
    · exact ⟨f, h5 f hf fun e => hn (by rw [e]; simp), rfl⟩

theorem children_kept {src : Nat → Option (List Child)} (hp : PlainSources src) (fuel : Nat) (kids : List Child) : ∀ (s : S), Inv s →
    s.types.length + (kids.filterMap Child.declares).length < fuel →
    ∃ s' t, children (load src fuel) kids s = .ok s' t ∧ Kept s s' (kids.filterMap Child.declares) := by
  induction kids with
  | nil => intro s hi _; exact ⟨s, false, rfl, Kept.refl hi⟩
  | cons k kids ih =>
    intro s hi hf
    cases k with
    | proto pkg n link opens =>
      obtain ⟨s1, e1, k1⟩ := addProto_kept hi pkg n link opens
      have hd : (Child.proto pkg n link opens :: kids).filterMap Child.declares = n :: kids.filterMap Child.declares := rfl
      rw [hd, List.length_cons] at hf
      rw [children, e1, hd]
      cases opens with
      | true =>
        have h1 := k1.size
        obtain ⟨s2, t, e2, k2⟩ := ih s1 k1.inv (by rw [List.length_singleton] at h1; omega)
        exact ⟨s2, t, e2, k1.trans k2⟩
      | false =>
        refine ⟨s1, true, rfl, k1.inv, ?_, fun f hf hn => k1.keeps f hf fun h => hn ?_, k1.idle⟩
        · have h1 := k1.size
          rw [List.length_singleton] at h1
          rw [List.length_cons]; omega
        · rw [List.mem_singleton.1 h]; simp
    | type n rs =>
      have hd : (Child.type n rs :: kids).filterMap Child.declares = kids.filterMap Child.declares := rfl
      rw [hd] at hf
      rw [children, hd]
      have h1 := addType_calm (load_calm hp fuel) s ⟨hi.ids, by have := free_le s; omega⟩ n rs
      cases hr : addType (load src fuel) s n rs with
      | uaf => rw [hr] at h1; exact absurd h1 id
      | deep => rw [hr] at h1; exact absurd h1 id
      | ok s1 t =>
        rw [hr] at h1
        have k1 := Same.kept h1 hi
        have hs := k1.size
        obtain ⟨s2, t2, e2, k2⟩ := ih s1 k1.inv (by rw [List.length_nil] at hs; omega)
        exact ⟨s2, t2, e2, k1.trans k2⟩

theorem step_kept {src : Nat → Option (List Child)} (hp : PlainSources src) (fuel : Nat) (o : Op) (s : S) (hi : Inv s)
    (ho : o.fresh ∨ ∃ id, o = .held id ∧ (s.get id).isSome) (hf : s.types.length + o.declares.length < fuel) :
    ∃ s' t, step src fuel s o = .ok s' t ∧ Kept s s' o.declares := by
  have hroom : Room fuel s := ⟨hi.ids, by have := free_le s; omega⟩
  have hload : ∀ id, (s.get id).isSome → ∃ s' t, load src fuel s id = .ok s' t ∧ Kept s s' [] := by
    intro id ha
    have h1 := load_calm hp fuel s id hroom ha
    cases hr : load src fuel s id with
    | uaf => rw [hr] at h1; exact absurd h1 (fun h => h)
    | deep => rw [hr] at h1; exact absurd h1 (fun h => h)
    | ok s1 t => rw [hr] at h1; exact ⟨s1, t, rfl, Same.kept h1 hi⟩
  cases o with
  | source kids => exact children_kept hp fuel kids s hi hf
  | byName n =>
    rw [step]
    cases hfn : s.find n with
    | none => exact ⟨s, false, rfl, Kept.refl hi⟩
    | some f => exact hload f.id (find_alive hfn)
  | byIndex i =>
    rw [step]
    cases hl : s.listed[i]? with
    | none => exact ⟨s, false, rfl, Kept.refl hi⟩
    | some id =>
      refine hload id ?_
      obtain ⟨f, hfm, e⟩ := hi.listed id (List.mem_of_getElem? hl)
      unfold S.get
      rw [List.find?_isSome]
      exact ⟨f, hfm, by simpa using e⟩
  | held id =>
    rcases ho with h | ⟨id', e, ha⟩
    · exact absurd h (fun h => h)
    · cases e; exact hload id ha

theorem steps_kept {src : Nat → Option (List Child)} (hp : PlainSources src) (fuel : Nat) (ops : List Op) (ho : ∀ o ∈ ops, o.fresh) : ∀ (s : S), Inv s →
    s.types.length + (ops.flatMap Op.declares).length < fuel →
    ∃ s', steps src fuel s ops = .ok s' false ∧ Kept s s' (ops.flatMap Op.declares) := by
  induction ops with
  | nil => intro s hi _; exact ⟨s, rfl, Kept.refl hi⟩
  | cons o ops ih =>
    intro s hi hf
    rw [List.flatMap_cons, List.length_append] at hf
    obtain ⟨s1, t, e1, k1⟩ := step_kept hp fuel o s hi (.inl (ho o (by simp))) (by omega)
    have := k1.size
    obtain ⟨s2, e2, k2⟩ := ih (fun x hx => ho x (List.mem_cons_of_mem _ hx)) s1 k1.inv (by omega)
    refine ⟨s2, ?_, ?_⟩
    · rw [steps, e1]; exact e2
    · rw [List.flatMap_cons]; exact k1.trans k2

theorem steps_append {src : Nat → Option (List Child)} {fuel : Nat} (a b : List Op) : ∀ (s s1 : S), steps src fuel s a = .ok s1 false →
    steps src fuel s (a ++ b) = steps src fuel s1 b := by
  induction a with
  | nil => intro s s1 h; injection h with h; rw [h]; rfl
  | cons o a ih =>
    intro s s1 h
    rw [List.cons_append, steps]
    rw [steps] at h
    cases hr : step src fuel s o with
    | uaf => rw [hr] at h; cases h
    | deep => rw [hr] at h; cases h
    | ok s2 t => rw [hr] at h; exact ih s2 s1 h

theorem get_of_mem {s : S} (hi : Inv s) {f : Ft} (hf : f ∈ s.types) : s.get f.id = some f := by
  cases hg : s.get f.id with
  | none =>
    have := List.find?_eq_none.1 hg f hf
    simp at this
  | some g =>
    obtain ⟨h1, h2⟩ := get_mem hg
    rw [nodup_eq hi.ids h1 hf h2]

/-- C88: no deleted type is used, and a type is deleted only by a declaration of the same name. For any program that reads sources (with any prototypes
and types) and loads types in any order, as long as the sources the types name declare no prototypes themselves: every call ends; every type the
library has handed out is still there, with its name and place, and can be loaded, unless a source read since then declares its name again.
Missing: sources of types that declare prototypes (violated below). -/
theorem C88_types_live_until_they_are_declared_again_partial (src : Nat → Option (List Child)) (hp : PlainSources src) (before after : List Op)
    (ho : ∀ o ∈ before ++ after, o.fresh) (fuel : Nat) (hf : ((before ++ after).flatMap Op.declares).length < fuel) :
    ∃ s1 s2, steps src fuel S.empty before = .ok s1 false ∧ steps src fuel S.empty (before ++ after) = .ok s2 false ∧
      ∀ f ∈ s1.types, f.name ∉ after.flatMap Op.declares →
        (s2.get f.id).map Ft.seen = some f.seen ∧ ∃ s3 t, step src fuel s2 (.held f.id) = .ok s3 t := by
  rw [List.flatMap_append, List.length_append] at hf
  obtain ⟨s1, e1, k1⟩ := steps_kept hp fuel before (fun o h => ho o (List.mem_append_left _ h)) S.empty empty_inv
    (by show 0 + _ < fuel; omega)
  have h1 : s1.types.length ≤ 0 + _ := k1.size
  obtain ⟨s2, e2, k2⟩ := steps_kept hp fuel after (fun o h => ho o (List.mem_append_right _ h)) s1 k1.inv (by omega)
  have h2 := k2.size
  refine ⟨s1, s2, e1, by rw [steps_append _ _ _ _ e1]; exact e2, fun f hfm hn => ?_⟩
  obtain ⟨g, hg, e⟩ := k2.keeps f hfm hn
  have hid : g.id = f.id := congrArg Prod.fst e
  have hget := get_of_mem k2.inv hg
  rw [hid] at hget
  refine ⟨by rw [hget]; exact congrArg some e, ?_⟩
  obtain ⟨s3, t, e3, -⟩ := step_kept hp fuel (.held f.id) s2 k2.inv (.inr ⟨f.id, rfl, by rw [hget]; rfl⟩) (by show _ + 0 < fuel; omega)
  exact ⟨s3, t, e3⟩

/-! ### Listing -/

theorem find_of_mem {s : S} (hi : Inv s) {f : Ft} (hf : f ∈ s.types) : s.find f.name = some f := by
  cases hg : s.find f.name with
  | none =>
    have := List.find?_eq_none.1 hg f hf
    simp at this
  | some g =>
    obtain ⟨h1, h2⟩ := find_mem hg
    rw [name_eq hi.names h1 hf h2]

theorem addType_tried {fuel : Nat} {loadF : S → Nat → R} (hl : Loads fuel loadF) {s : S} (hroom : Room fuel s) (hi : Inv s) {f : Ft} (hf : f ∈ s.types)
    (rs : List Name) {s' : S} {t : Bool} (h : addType loadF s f.name rs = .ok s' t) : Tried s' f.id := by
  unfold addType at h
  rw [find_of_mem hi hf] at h
  dsimp only at h
  by_cases hs : f.started = true
  · rw [if_pos hs] at h
    injection h with h
    rw [← h]
    exact ⟨f, hf, rfl, by rw [hs]; rfl⟩
  · rw [if_neg hs] at h
    have h1 : Same s (s.set f.id fun g => { g with started := true }) := same_set _ _ _ (fun _ => rfl) fun _ _ => rfl
    have h2 := refs_calm hl f.id rs _ (Same.room h1 hroom) (Same.alive h1 (by rw [get_of_mem hi hf]; rfl))
    have ht : Tried (s.set f.id fun g => { g with started := true }) f.id := ⟨_, List.mem_map.2 ⟨f, hf, if_pos rfl⟩, rfl, rfl⟩
    cases hr : refs loadF f.id rs (s.set f.id fun g => { g with started := true }) with
    | uaf => rw [hr] at h; cases h
    | deep => rw [hr] at h; cases h
    | ok s1 t1 =>
      rw [hr] at h h2
      dsimp only at h
      split at h
      · injection h with h
        rw [← h]
        exact h2.tried _ ht
      · cases h

theorem children_tried {fuel : Nat} {loadF : S → Nat → R} (hl : Loads fuel loadF) (kids : List Child) (hk : ∀ k ∈ kids, k.declares = none) :
    ∀ (s : S), Room fuel s → Inv s → ∀ f ∈ s.types, (∃ rs, Child.type f.name rs ∈ kids) → ∀ s' t, children loadF kids s = .ok s' t → Tried s' f.id := by
  induction kids with
  | nil => intro s _ _ f _ h; obtain ⟨rs, h⟩ := h; cases h
  | cons k kids ih =>
    intro s hroom hi f hf hex s' t h
    cases k with
    | proto pkg n link opens => exact absurd (hk (.proto pkg n link opens) (by simp)) (by simp [Child.declares])
    | type n rs =>
      rw [children] at h
      have h1 := addType_calm hl s hroom n rs
      cases hr : addType loadF s n rs with
      | uaf => rw [hr] at h; cases h
      | deep => rw [hr] at h; cases h
      | ok s1 t1 =>
        rw [hr] at h h1
        dsimp only at h
        have hkk : ∀ k ∈ kids, k.declares = none := fun k hk' => hk k (List.mem_cons_of_mem _ hk')
        by_cases hn : n = f.name
        · rw [hn] at hr
          have ht := addType_tried hl hroom hi hf rs hr
          have h2 := children_calm hl kids hkk s1 (Same.room h1 hroom)
          rw [h] at h2
          exact h2.tried _ ht
        · obtain ⟨rs', hm⟩ := hex
          obtain ⟨g, hg, e⟩ := mem_key' h1 hf
          have e1 : g.id = f.id := congrArg Prod.fst e
          have e2 : g.name = f.name := congrArg (fun k => k.2.1) e
          have := ih hkk s1 (Same.room h1 hroom) (h1.inv hi) g hg ⟨rs', by
            rw [e2]
            rcases List.mem_cons.1 hm with h' | h'
            · injection h' with h' _; exact absurd h'.symm hn
            · exact h'⟩ s' t h
          rw [← e1]; exact this

/-- a type that is loaded is there afterwards, or its source cannot be read, or does not contain it -/
theorem load_tried {src : Nat → Option (List Child)} (hp : PlainSources src) (fuel : Nat) (s : S) (hroom : Room fuel s) (hi : Inv s) (f : Ft) (hf : f ∈ s.types)
    (hb : f.busy = false) (s' : S) (t : Bool) (h : load src fuel s f.id = .ok s' t) :
    Tried s' f.id ∨ ∃ p kids, f.link = some p ∧ src p = some kids ∧ ∀ rs, Child.type f.name rs ∉ kids := by
  cases fuel with
  | zero => cases h
  | succ fuel =>
    have hg := get_of_mem hi hf
    rw [load, hg] at h
    dsimp only at h
    by_cases hfl : (f.started || f.busy || f.broken) = true
    · rw [if_pos hfl] at h
      injection h with h
      refine .inl ⟨f, by rw [← h]; exact hf, rfl, ?_⟩
      rw [hb, Bool.or_false] at hfl
      exact hfl
    · rw [if_neg hfl] at h
      cases hk : f.link.bind src with
      | none =>
        rw [hk] at h
        injection h with h
        rw [← h]
        exact .inl ⟨_, List.mem_map.2 ⟨f, hf, if_pos rfl⟩, rfl, Bool.or_true _⟩
      | some kids =>
        rw [hk] at h
        dsimp only at h
        obtain ⟨p, hl, hsrc⟩ : ∃ p, f.link = some p ∧ src p = some kids := by
          cases hl : f.link with
          | none => rw [hl] at hk; cases hk
          | some p => rw [hl] at hk; exact ⟨p, rfl, hk⟩
        by_cases hex : ∃ rs, Child.type f.name rs ∈ kids
        · refine .inl ?_
          have hpl := hp p kids hsrc
          have hroom2 : Room fuel (s.set f.id fun g => { g with busy := true }) := by
            refine ⟨?_, ?_⟩
            · have : (s.set f.id fun g => { g with busy := true }).types.map (·.id) = s.types.map (·.id) := by
                show (s.types.map _).map _ = _
                rw [List.map_map]
                refine List.map_congr_left fun g _ => ?_
                show (if g.id = f.id then { g with busy := true } else g).id = g.id
                by_cases h : g.id = f.id
                · rw [if_pos h]
                · rw [if_neg h]
              rw [this]; exact hroom.1
            · have h1 : free (s.set f.id fun g => { g with busy := true }) < free s := countP_less s.types f.id f hf rfl hb
              have h2 := hroom.2
              omega
          have hinv2 : Inv (s.set f.id fun g => { g with busy := true }) := by
            have hkeep : ∀ g : Ft, (if g.id = f.id then { g with busy := true } else g).id = g.id ∧
                (if g.id = f.id then { g with busy := true } else g).name = g.name := by
              intro g
              by_cases h : g.id = f.id
              · rw [if_pos h]; exact ⟨rfl, rfl⟩
              · rw [if_neg h]; exact ⟨rfl, rfl⟩
            refine ⟨hroom2.1, ?_, ?_, ?_, hi.once⟩
            · have : (s.set f.id fun g => { g with busy := true }).types.map (·.name) = s.types.map (·.name) := by
                show (s.types.map _).map _ = _
                rw [List.map_map]
                exact List.map_congr_left fun g _ => (hkeep g).2
              rw [this]; exact hi.names
            · intro g hg'
              obtain ⟨g0, h0, e⟩ := List.mem_map.1 hg'
              rw [← e, (hkeep g0).1]
              exact hi.small g0 h0
            · intro id hid
              obtain ⟨g0, h0, e⟩ := hi.listed id hid
              exact ⟨_, List.mem_map.2 ⟨g0, h0, rfl⟩, (hkeep g0).1.trans e⟩
          cases hr : children (load src fuel) kids (s.set f.id fun g => { g with busy := true }) with
          | uaf => rw [hr] at h; cases h
          | deep => rw [hr] at h; cases h
          | ok s1 t1 =>
            rw [hr] at h
            dsimp only at h
            have ht : Tried s1 f.id := by
              have := children_tried (load_calm hp fuel) kids hpl _ hroom2 hinv2 { f with busy := true } (List.mem_map.2 ⟨f, hf, if_pos rfl⟩) hex s1 t1 hr
              exact this
            split at h
            · injection h with h
              rw [← h]
              refine tried_set s1 f.id (fun g => { g with busy := false, broken := g.broken || t1 }) (fun _ => rfl) ?_ _ ht
              intro g hg'
              show (g.started || (g.broken || t1)) = true
              cases h1 : g.started
              · rw [h1] at hg'
                have : g.broken = true := hg'
                rw [this]; rfl
              · rfl
            · cases h
        · exact .inr ⟨p, kids, hl, hsrc, fun rs hm => hex ⟨rs, hm⟩⟩

/-- C88: the list of the types. After any program as in `C88_types_live_until_they_are_declared_again_partial` the console tool prints the name of every
listed type once, in the order of the list, whether it loads the types or not; and if it does, every listed type is loaded afterwards, or its source
cannot be read or does not contain it. -/
theorem C88_listing_shows_every_type_once_partial (src : Nat → Option (List Child)) (hp : PlainSources src) (ops : List Op) (ho : ∀ o ∈ ops, o.fresh)
    (fuel : Nat) (hf : (ops.flatMap Op.declares).length < fuel) (doLoad : Bool) :
    ∃ s printed s', steps src fuel S.empty ops = .ok s false ∧ list src fuel doLoad (s.listed.length + 1) 0 s = (printed, .ok s' false) ∧
      s.listed.Nodup ∧ printed.map some = s.listed.map (fun id => (s.get id).map (·.name)) ∧
      (doLoad = true → ∀ id ∈ s.listed, Tried s' id ∨
        ∃ f p kids, s.get id = some f ∧ f.link = some p ∧ src p = some kids ∧ ∀ rs, Child.type f.name rs ∉ kids) := by
  obtain ⟨s, e, k⟩ := steps_kept hp fuel ops ho S.empty empty_inv (by show 0 + _ < fuel; omega)
  have hi := k.inv
  have hsz : s.types.length ≤ 0 + _ := k.size
  have hroom : Room fuel s := ⟨hi.ids, by have := free_le s; omega⟩
  have hidle := k.idle (fun f hf => by cases hf)
  have key : ∀ (n idx : Nat) (s1 : S), Same s s1 → idx + n = s.listed.length →
      ∃ printed s', list src fuel doLoad (n + 1) idx s1 = (printed, .ok s' false) ∧ Same s1 s' ∧
        printed.map some = (s.listed.drop idx).map (fun id => (s.get id).map (·.name)) ∧
        (doLoad = true → ∀ id ∈ s.listed.drop idx, Tried s' id ∨
          ∃ f p kids, s.get id = some f ∧ f.link = some p ∧ src p = some kids ∧ ∀ rs, Child.type f.name rs ∉ kids) := by
    intro n
    induction n with
    | zero =>
      intro idx s1 hs hn
      have h1 : s1.listed[idx]? = none := by rw [hs.listed]; exact List.getElem?_eq_none (by omega)
      have h2 : s.listed.drop idx = [] := List.drop_eq_nil_of_le (by omega)
      refine ⟨[], s1, ?_, Same.refl _, by rw [h2]; rfl, fun _ id hid => by rw [h2] at hid; cases hid⟩
      rw [list, h1]
    | succ n ih =>
      intro idx s1 hs hn
      have hlt : idx < s.listed.length := by omega
      have h1 : s1.listed[idx]? = some s.listed[idx] := by rw [hs.listed]; exact List.getElem?_eq_getElem hlt
      have hd : s.listed.drop idx = s.listed[idx] :: s.listed.drop (idx + 1) := List.drop_eq_getElem_cons hlt
      obtain ⟨f, hfm, hid⟩ := hi.listed _ (List.getElem_mem hlt)
      have hgs : s.get s.listed[idx] = some f := by rw [← hid]; exact get_of_mem hi hfm
      obtain ⟨g, hgm, ek⟩ := mem_key' hs hfm
      have ei : g.id = f.id := congrArg Prod.fst ek
      have en : g.name = f.name := congrArg (fun k => k.2.1) ek
      have el : g.link = f.link := congrArg (fun k => k.2.2.1) ek
      have eb : g.busy = f.busy := congrArg (fun k => k.2.2.2) ek
      have hinv1 := hs.inv hi
      have hg1 : s1.get s.listed[idx] = some g := by rw [← hid, ← ei]; exact get_of_mem hinv1 hgm
      cases doLoad with
      | false =>
        obtain ⟨pr, s', h2, h3, h4, -⟩ := ih (idx + 1) s1 hs (by omega)
        refine ⟨g.name :: pr, s', ?_, h3, ?_, fun h => absurd h (by decide)⟩
        · rw [list, h1]
          dsimp only
          rw [hg1]
          dsimp only
          rw [if_neg (by decide), h2]
        · rw [hd, List.map_cons, List.map_cons, h4, hgs, en]; rfl
      | true =>
        have hc := load_calm hp fuel s1 s.listed[idx] (hs.room hroom) (by rw [hg1]; rfl)
        cases hr : load src fuel s1 s.listed[idx] with
        | uaf => rw [hr] at hc; exact absurd hc (fun h => h)
        | deep => rw [hr] at hc; exact absurd hc (fun h => h)
        | ok s2 t =>
          rw [hr] at hc
          obtain ⟨pr, s', h2, h3, h4, h5⟩ := ih (idx + 1) s2 (Same.trans hs hc) (by omega)
          refine ⟨g.name :: pr, s', ?_, Same.trans hc h3, ?_, fun _ id hid' => ?_⟩
          · rw [list, h1]
            dsimp only
            rw [hg1]
            dsimp only
            rw [if_pos rfl, hr]
            dsimp only
            rw [h2]
          · rw [hd, List.map_cons, List.map_cons, h4, hgs, en]; rfl
          · rw [hd] at hid'
            rcases List.mem_cons.1 hid' with h | h
            · have hb : g.busy = false := eb.trans (hidle f hfm)
              have := load_tried hp fuel s1 (hs.room hroom) hinv1 g hgm hb s2 t (by rw [ei, hid]; exact hr)
              rcases this with h6 | ⟨p, kids, h6, h7, h8⟩
              · rw [h, ← hid, ← ei]
                exact .inl (h3.tried _ h6)
              · refine .inr ⟨f, p, kids, by rw [h]; exact hgs, by rw [← el]; exact h6, h7, by rw [← en]; exact h8⟩
            · exact h5 rfl id h
  obtain ⟨pr, s', h1, -, h2, h3⟩ := key s.listed.length 0 s (Same.refl s) (Nat.zero_add _)
  rw [List.drop_zero] at h2 h3
  exact ⟨s, pr, s', e, h1, hi.once, h2, h3⟩

/-! ### The tables, for all sources -/

/-- the tables are in order, and every type that counts as loaded has a name of `P` -/
def Known (P : Name → Prop) (s : S) : Prop := Inv s ∧ ∀ f ∈ s.types, f.started = true → P f.name

def R.Known (P : Name → Prop) : R → Prop
  | .ok s _ => Life.Known P s
  | .uaf => True
  | .deep => True

theorem known_set {P : Name → Prop} {s : S} (h : Known P s) (id : Nat) (g : Ft → Ft) (hk : ∀ f, (g f).id = f.id ∧ (g f).name = f.name)
    (hg : ∀ f ∈ s.types, f.id = id → (g f).started = true → P f.name) : Known P (s.set id g) := by
  obtain ⟨hi, hp⟩ := h
  have hkeep : ∀ f : Ft, (if f.id = id then g f else f).id = f.id ∧ (if f.id = id then g f else f).name = f.name := by
    intro f
    by_cases h : f.id = id
    · rw [if_pos h]; exact hk f
    · rw [if_neg h]; exact ⟨rfl, rfl⟩
  refine ⟨⟨?_, ?_, ?_, ?_, hi.once⟩, ?_⟩
  · show ((s.types.map _).map _).Nodup
    rw [List.map_map, show s.types.map ((fun f : Ft => f.id) ∘ fun f => if f.id = id then g f else f) = s.types.map (·.id) from
      List.map_congr_left fun f _ => (hkeep f).1]
    exact hi.ids
  · show ((s.types.map _).map _).Nodup
    rw [List.map_map, show s.types.map ((fun f : Ft => f.name) ∘ fun f => if f.id = id then g f else f) = s.types.map (·.name) from
      List.map_congr_left fun f _ => (hkeep f).2]
    exact hi.names
  · intro f hf
    obtain ⟨f0, h0, e⟩ := List.mem_map.1 hf
    rw [← e, (hkeep f0).1]
    exact hi.small f0 h0
  · intro k hk'
    obtain ⟨f0, h0, e⟩ := hi.listed k hk'
    exact ⟨_, List.mem_map.2 ⟨f0, h0, rfl⟩, (hkeep f0).1.trans e⟩
  · intro f hf hs
    obtain ⟨f0, h0, e⟩ := List.mem_map.1 hf
    by_cases h : f0.id = id
    · rw [if_pos h] at e
      rw [← e] at hs ⊢
      rw [(hk f0).2]
      exact hg f0 h0 h hs
    · rw [if_neg h] at e
      rw [← e] at hs ⊢
      exact hp f0 h0 hs

theorem known_proto {P : Name → Prop} {s : S} (h : Known P s) (pkg : Bool) (n : Name) (link : Option Nat) (opens : Bool) :
    (addProto s pkg n link opens).Known P := by
  obtain ⟨hi, hp⟩ := h
  obtain ⟨h1, h2, h3, h4, h5, h6⟩ := forget_inv hi n
  unfold addProto
  cases opens with
  | true =>
    refine ⟨register_inv h1 pkg n link h4, fun f hf hs => ?_⟩
    rcases List.mem_append.1 hf with h | h
    · exact hp f (h6 f h) hs
    · rw [List.mem_singleton.1 h] at hs; cases hs
  | false =>
    refine ⟨⟨h1.ids, h1.names, fun f hf => ?_, h1.listed, h1.once⟩, fun f hf hs => hp f (h6 f hf) hs⟩
    have := h1.small f hf
    rw [h2] at this
    exact Nat.lt_succ_of_lt this

theorem known_refs {P : Name → Prop} {loadF : S → Nat → R} (hl : ∀ s id, Known P s → (loadF s id).Known P) (cur : Nat) :
    ∀ (rs : List Name) (s : S), Known P s → (refs loadF cur rs s).Known P := by
  intro rs
  induction rs with
  | nil => exact fun s h => h
  | cons n r ih =>
    intro s h
    rw [refs]
    cases s.find n with
    | none => exact ih s h
    | some f =>
      dsimp only
      have := hl s f.id h
      cases hr : loadF s f.id with
      | uaf => trivial
      | deep => trivial
      | ok s1 t =>
        rw [hr] at this
        dsimp only
        split
        · exact ih s1 this
        · trivial

theorem known_addType {P : Name → Prop} {loadF : S → Nat → R} (hl : ∀ s id, Known P s → (loadF s id).Known P) {n : Name} (hn : P n) (rs : List Name)
    {s : S} (h : Known P s) : (addType loadF s n rs).Known P := by
  unfold addType
  cases hf : s.find n with
  | none => exact h
  | some f =>
    dsimp only
    obtain ⟨hmem, hname⟩ := find_mem hf
    by_cases hs : f.started = true
    · rw [if_pos hs]; exact h
    · rw [if_neg hs]
      have h2 : Known P (s.set f.id fun g => { g with started := true }) := by
        refine known_set h f.id _ (fun _ => ⟨rfl, rfl⟩) fun g hg e _ => ?_
        rw [nodup_eq h.1.ids hg hmem e, hname]; exact hn
      have := known_refs hl f.id rs _ h2
      cases hr : refs loadF f.id rs (s.set f.id fun g => { g with started := true }) with
      | uaf => trivial
      | deep => trivial
      | ok s1 t =>
        rw [hr] at this
        dsimp only
        split
        · exact this
        · trivial

theorem known_children {P : Name → Prop} {loadF : S → Nat → R} (hl : ∀ s id, Known P s → (loadF s id).Known P) :
    ∀ (kids : List Child), (∀ n rs, Child.type n rs ∈ kids → P n) → ∀ s, Known P s → (children loadF kids s).Known P := by
  intro kids
  induction kids with
  | nil => exact fun _ s h => h
  | cons k r ih =>
    intro hk s h
    have ih' := ih fun n rs hm => hk n rs (List.mem_cons_of_mem _ hm)
    cases k with
    | proto pkg n link opens =>
      rw [children]
      have := known_proto h pkg n link opens
      cases hr : addProto s pkg n link opens with
      | uaf => trivial
      | deep => trivial
      | ok s1 t =>
        rw [hr] at this
        cases t with
        | false => exact ih' s1 this
        | true => exact this
    | type n rs =>
      rw [children]
      have := known_addType hl (hk n rs (by simp)) rs h
      cases hr : addType loadF s n rs with
      | uaf => trivial
      | deep => trivial
      | ok s1 t => rw [hr] at this; exact ih' s1 this

theorem known_load {P : Name → Prop} {src : Nat → Option (List Child)} (hp : ∀ p kids n rs, src p = some kids → Child.type n rs ∈ kids → P n) :
    ∀ (fuel : Nat) (s : S) (id : Nat), Known P s → (load src fuel s id).Known P := by
  intro fuel
  induction fuel with
  | zero => intro s id _; trivial
  | succ fuel ih =>
    intro s id h
    rw [load]
    cases hg : s.get id with
    | none => trivial
    | some f =>
      dsimp only
      by_cases hc : (f.started || f.busy || f.broken) = true
      · rw [if_pos hc]; exact h
      · rw [if_neg hc]
        cases hl : f.link.bind src with
        | none => exact known_set h id _ (fun _ => ⟨rfl, rfl⟩) fun g hg' _ hs => h.2 g hg' hs
        | some kids =>
          dsimp only
          obtain ⟨p, -, hsrc⟩ := Option.bind_eq_some_iff.1 hl
          have h2 : Known P (s.set id fun g => { g with busy := true }) := known_set h id _ (fun _ => ⟨rfl, rfl⟩) fun g hg' _ hs => h.2 g hg' hs
          have := known_children ih kids (fun n rs hm => hp p kids n rs hsrc hm) _ h2
          cases hr : children (load src fuel) kids (s.set id fun g => { g with busy := true }) with
          | uaf => trivial
          | deep => trivial
          | ok s1 t =>
            rw [hr] at this
            dsimp only
            split
            · exact known_set this id _ (fun _ => ⟨rfl, rfl⟩) fun g hg' _ hs => this.2 g hg' hs
            · trivial

/-- C88: the tables. Whatever the sources contain (also prototypes in the sources of types) and whatever the program does (also with pointers it kept):
when it gets through, no two types have the same name, every listed type exists and is listed once, and a type counts as loaded only if some source
contains a type of that name. -/
theorem C88_tables_in_order (src : Nat → Option (List Child)) (fuel : Nat) (ops : List Op) (s : S) (t : Bool)
    (h : steps src fuel S.empty ops = .ok s t) :
    (s.types.map (·.name)).Nodup ∧ s.listed.Nodup ∧ (∀ id ∈ s.listed, (s.get id).isSome) ∧
    ∀ f ∈ s.types, f.started = true → (∃ p kids rs, src p = some kids ∧ Child.type f.name rs ∈ kids) ∨ ∃ kids rs, Op.source kids ∈ ops ∧ Child.type f.name rs ∈ kids := by
  let P : Name → Prop := fun n => (∃ p kids rs, src p = some kids ∧ Child.type n rs ∈ kids) ∨ ∃ kids rs, Op.source kids ∈ ops ∧ Child.type n rs ∈ kids
  have hload := known_load (P := P) (src := src) (fun p kids n rs h1 h2 => .inl ⟨p, kids, rs, h1, h2⟩) fuel
  have key : ∀ (r : List Op), (∀ o ∈ r, o ∈ ops) → ∀ s0, Known P s0 → (steps src fuel s0 r).Known P := by
    intro r
    induction r with
    | nil => exact fun _ s0 h => h
    | cons o r ih =>
      intro hr s0 h0
      have h1 : (step src fuel s0 o).Known P := by
        cases o with
        | source kids => exact known_children hload kids (fun n rs hm => .inr ⟨kids, rs, hr _ (by simp), hm⟩) s0 h0
        | byName n =>
          rw [step]
          cases s0.find n with
          | none => exact h0
          | some f => exact hload s0 f.id h0
        | byIndex i =>
          rw [step]
          cases s0.listed[i]? with
          | none => exact h0
          | some id => exact hload s0 id h0
        | held id => exact hload s0 id h0
      rw [steps]
      cases he : step src fuel s0 o with
      | uaf => trivial
      | deep => trivial
      | ok s1 t1 => rw [he] at h1; exact ih (fun o ho => hr o (List.mem_cons_of_mem _ ho)) s1 h1
  have := key ops (fun _ h => h) S.empty ⟨empty_inv, fun f hf => (by cases hf)⟩
  rw [h] at this
  obtain ⟨hi, hk⟩ := this
  refine ⟨hi.names, hi.once, fun id hid => ?_, hk⟩
  obtain ⟨f, hf, e⟩ := hi.listed id hid
  rw [← e]
  unfold S.get
  rw [List.find?_isSome]
  exact ⟨f, hf, by simp⟩

/-! ## Witnesses -/
namespace Demo

def a : Name := [97]
def b : Name := [98]
def c : Name := [99]

/-- three types and a package; `a` refers to `b` and to the package -/
def catalogue : List Child :=
  [.proto false a (some 0) true, .proto false b (some 1) true, .proto true c (some 2) true, .proto false [100] none true]

def plain : Nat → Option (List Child)
  | 0 => some [.type a [b, c]]
  | 1 => some [.type b [a]]
  | 2 => some [.type c []]
  | _ => none

theorem plain_ok : PlainSources plain := by
  intro p kids h k hk
  match p, h with
  | 0, h => injection h with h; rw [← h] at hk; rw [List.mem_singleton.1 hk]; rfl
  | 1, h => injection h with h; rw [← h] at hk; rw [List.mem_singleton.1 hk]; rfl
  | 2, h => injection h with h; rw [← h] at hk; rw [List.mem_singleton.1 hk]; rfl

/-- such programs exist: start, load `a`, declare `b` again, load the second of the list -/
example : ∀ o ∈ [Op.source catalogue, .byName a, .source [.proto false b (some 1) true], .byIndex 1], o.fresh := by
  intro o ho
  simp only [List.mem_cons, List.not_mem_nil, or_false] at ho
  rcases ho with e | e | e | e <;> rw [e] <;> trivial

example : (list plain 9 true 4 0 ⟨[⟨0, a, some 0, false, false, false⟩, ⟨1, b, some 1, false, false, false⟩, ⟨2, c, some 2, false, false, false⟩,
    ⟨3, [100], none, false, false, false⟩], [0, 1, 3], 4⟩) =
    ([a, b, [100]], .ok ⟨[⟨0, a, some 0, true, false, false⟩, ⟨1, b, some 1, true, false, false⟩, ⟨2, c, some 2, true, false, false⟩,
      ⟨3, [100], none, false, false, true⟩], [0, 1, 3], 4⟩ false) := by decide +kernel

/-- a program gets through although a source declares another type again -/
example : steps (fun | 0 => some [.proto false b (some 1) true, .type a [b]] | 1 => some [.type b []] | _ => none) 9 S.empty
    [.source [.proto false a (some 0) true, .proto false b (some 1) true, .proto true c none true], .byName a] =
    .ok ⟨[⟨0, a, some 0, true, false, false⟩, ⟨2, c, none, false, false, false⟩, ⟨3, b, some 1, true, false, false⟩], [0, 3], 4⟩ false := by decide +kernel

/-- C88 is violated: the source of `a` declares `a` again. Loading `a` deletes it while it is being loaded, and writes to it afterwards. -/
def again : Nat → Option (List Child)
  | 0 => some [.proto false a (some 0) true, .type a []]
  | _ => none

theorem C88_violated_source_declares_its_own_type : steps again 9 S.empty [.source [.proto false a (some 0) true], .byName a] = .uaf := by decide +kernel

/-- C88 is violated: a pointer kept while a source declares the type again is dead -/
theorem C88_violated_kept_pointer :
    steps plain 9 S.empty [.source catalogue, .byName a, .source [.proto false a (some 0) true], .held 0] = .uaf ∧
    steps plain 9 S.empty [.source catalogue, .byName a, .source [.proto false a (some 0) true], .byName a] ≠ .uaf := by decide +kernel

/-- C88 is violated: the source of `b` declares `a` again (with a place): while the types are loaded from the list, the list shifts: `a` is printed twice and
`c` never, nor is it loaded -/
def shifts : Nat → Option (List Child)
  | 0 => some [.type a []]
  | 1 => some [.proto false a (some 0) true, .type b []]
  | 2 => some [.type c []]
  | _ => none

/-- the names printed, the types tried -/
def shown (r : List Name × R) : List Name × List Name := match r.2 with
  | .ok s _ => (r.1, (s.types.filter fun f => f.started || f.broken).map (·.name))
  | .uaf => (r.1, [])
  | .deep => (r.1, [])

theorem C88_violated_list_shifts :
    shown (list shifts 9 true 9 0 ⟨[⟨0, a, some 0, false, false, false⟩, ⟨1, b, some 1, false, false, false⟩, ⟨2, c, some 2, false, false, false⟩], [0, 1, 2], 3⟩) =
    ([a, b, a], [b, a]) := by decide +kernel

/-- C88 is violated: `a` and `b` declare each other again in their sources and refer to each other: loading never ends -/
def mutual_ : Nat → Option (List Child)
  | 0 => some [.proto false b (some 1) true, .type a [b]]
  | 1 => some [.proto false a (some 0) true, .type b [a]]
  | _ => none

/-- the type `n`, fresh, is loaded while `m`, which refers to it, is being read -/
theorem endless_core (src : Nat → Option (List Child)) : ∀ (fuel : Nat) (n m : Name) (p q : Nat) (started busy : Bool) (i j next : Nat) (listed : List Nat), n ≠ m → i < next → j < next → i ≠ j →
    src p = some [.proto false m (some q) true, .type n [m]] → src q = some [.proto false n (some p) true, .type m [n]] →
    load src fuel ⟨[⟨i, m, some q, started, busy, false⟩, ⟨j, n, some p, false, false, false⟩], listed, next⟩ j = .deep := by
  intro fuel
  induction fuel with
  | zero => intros; rfl
  | succ fuel ih =>
    intro n m p q started busy i j next listed hnm hi hj hij hp hq
    have h1 := ih m n q p true true j next (next + 1) ((listed.erase i) ++ [next]) (Ne.symm hnm) (by omega) (by omega) (by omega) hq hp
    have hji : j ≠ i := Ne.symm hij
    have hne : next ≠ j := by omega
    simp [load, S.get, hij, hp, children, addProto, S.set, S.forget, S.find, S.unload, S.register, hji, addType, refs, hnm, hne, h1]

theorem C88_violated_endless : ∀ fuel, steps mutual_ fuel S.empty [.source [.proto false b (some 1) true, .proto false a (some 0) true], .byName a] = .deep := by
  intro fuel
  have h := endless_core mutual_ fuel a b 0 1 false false 0 1 2 [0, 1] (by decide) (by decide) (by decide) (by decide) rfl rfl
  have e : step mutual_ fuel S.empty (.source [.proto false b (some 1) true, .proto false a (some 0) true]) =
      .ok ⟨[⟨0, b, some 1, false, false, false⟩, ⟨1, a, some 0, false, false, false⟩], [0, 1], 2⟩ false := rfl
  rw [steps, e]
  dsimp only
  rw [steps]
  have e2 : step mutual_ fuel ⟨[⟨0, b, some 1, false, false, false⟩, ⟨1, a, some 0, false, false, false⟩], [0, 1], 2⟩ (.byName a) = .deep := h
  rw [e2]

end Demo

end Verif.Hrc.Life
