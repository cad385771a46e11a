import Mathlib.Data.List.Basic

/-!
# An archive read from memory (C70)

`zip/MemoryFile.cpp` gives minizip an archive that is already in memory as if it were a file: minizip opens it, moves in it, reads pieces of it
and asks for its position, and `unzip` takes one member out of it.

What is modelled: the six call-backs of lines 52-126 and `unzip` (5-50) around the answers of minizip, which is outside.  Numbers are unbounded
integers wrapped where the code wraps them: `int` is 32 bits, `uLong` at least 32 bits (its width does not matter, all it is used for is
added to an `int` and cut down to an `int`).  Signed overflow, which the language leaves undefined, and leaving the buffer are the outcome
`none`.
-/
namespace Verif.Io.Mem

/-- The conversion of an integer to a 32-bit `int` (two's complement, the implementation-defined conversion of every supported compiler). -/
def toInt (x : Int) : Int := Int.bmod x 4294967296

/-- `MemoryFile` (MemoryFile.h 8-14): the bytes of the archive, whose number is `length`, and `pointer`.  `error` is only ever 0 and is left out. -/
structure File where
  stream : List UInt8
  pointer : Int
deriving DecidableEq, Repr

/-- `mem_open_file_func` (MemoryFile.cpp 52-58): only the position is set. -/
def openFile (f : File) : File := { f with pointer := 0 }

/-- `mf->length` (MemoryFile.cpp 9). -/
def File.length (f : File) : Int := (f.stream.length : Int)

/-- The number of bytes `mem_read_file_func` decides to copy (MemoryFile.cpp 64-65); `none` if `pointer + (int) size` does not fit an `int`.
`size` is a `uLong` and so is the number decided on; a negative `length - pointer` would become a huge one, `none` too as nothing could be
copied (`Inside` below shows it does not happen). -/
def readSize (f : File) (size : Nat) : Option Nat :=
  let sum := f.pointer + toInt size
  if sum < -2147483648 ∨ 2147483647 < sum then none
  else if sum > f.length then
    (if f.length - f.pointer < 0 then none else some (f.length - f.pointer).toNat)
  else some size

/-- `mem_read_file_func` (MemoryFile.cpp 60-69): the bytes copied, and the file with its position moved.  `none` when the copying leaves the
buffer of the archive. -/
def read (f : File) (size : Nat) : Option (List UInt8 × File) :=
  match readSize f size with
  | none => none
  | some k =>
    if f.pointer < 0 ∨ f.length < f.pointer + k then none
    else some ((f.stream.drop f.pointer.toNat).take k, { f with pointer := toInt (f.pointer + k) })

/-- `ZLIB_FILEFUNC_SEEK_CUR`, `_END`, `_SET`, or another number. -/
inductive Origin where
  | cur | fin | set | other
deriving DecidableEq, Repr

/-- Where a move starts from (the three cases of MemoryFile.cpp 89-109). -/
def base (f : File) : Origin → Int
  | .cur => f.pointer
  | .fin => f.length
  | .set => 0
  | .other => 0

/-- `mem_seek_file_func` (MemoryFile.cpp 84-115): `true` for the answer 0, `false` for -1.  `offset` is the number minizip passes; a negative
one stands for the `uLong` it is converted to. -/
def seek (f : File) (offset : Int) (origin : Origin) : Bool × File :=
  if origin = .other then (false, f)
  else
    let cpointer := toInt (base f origin + offset)
    if cpointer > f.length then (false, f) else (true, { f with pointer := cpointer })

/-- `mem_tell_file_func` (MemoryFile.cpp 78-82). -/
def tell (f : File) : Int := f.pointer

/-! ## What a user of a file expects -/

/-- What minizip may ask for. -/
inductive Ask where
  | read (size : Nat)
  | seek (offset : Int) (origin : Origin)
  | tell
deriving DecidableEq, Repr

/-- What it gets. -/
inductive Answer where
  | bytes (b : List UInt8)
  | moved (ok : Bool)
  | position (p : Int)
deriving DecidableEq, Repr

/-- One request to the modelled file. -/
def step (f : File) : Ask → Option (Answer × File)
  | .read n => (read f n).map fun x => (.bytes x.1, x.2)
  | .seek o g => some (.moved (seek f o g).1, (seek f o g).2)
  | .tell => some (.position (tell f), f)

/-- The position a move asks for: from the start, from the end, from where the file is. -/
def target (all : List UInt8) (p : Nat) (o : Int) : Origin → Int
  | .cur => p + o
  | .fin => all.length + o
  | .set => o
  | .other => 0

/-- A file, as anyone would describe it: its bytes and a position in them.  Reading gives the bytes that follow, as many as asked for if they
are there; moving to a place that is not in the file fails and changes nothing. -/
def ideal (all : List UInt8) (p : Nat) : Ask → Answer × Nat
  | .read n => (.bytes ((all.drop p).take n), p + min n (all.length - p))
  | .seek o g =>
    if g ≠ .other ∧ 0 ≤ target all p o g ∧ target all p o g ≤ all.length then (.moved true, (target all p o g).toNat) else (.moved false, p)
  | .tell => (.position p, p)

/-- A user of the file: what it asks next depends on all it was told before. -/
abbrev User := List Answer → Ask

/-- `n` requests of a user to the modelled file. -/
def run (u : User) : Nat → File → Option (List Answer × File)
  | 0, f => some ([], f)
  | n + 1, f => match run u n f with
    | none => none
    | some (h, f) => (step f (u h)).map fun x => (h ++ [x.1], x.2)

/-- `n` requests of the same user to the ideal file. -/
def idealRun (u : User) (all : List UInt8) : Nat → List Answer × Nat
  | 0 => ([], 0)
  | n + 1 => let x := idealRun u all n; let y := ideal all x.2 (u x.1); (x.1 ++ [y.1], y.2)

/-- The requests the code serves: pieces and places below 2 GB, and no place before the start of the file. -/
def Fair (all : List UInt8) (p : Nat) : Ask → Prop
  | .read n => p + n < 2147483648
  | .seek o g => g = .other ∨ (0 ≤ target all p o g ∧ target all p o g < 2147483648)
  | .tell => True

/-! ## Proofs -/

theorem toInt_small {x : Int} (h : -2147483648 ≤ x) (h' : x < 2147483648) : toInt x = x := by
  unfold toInt
  rw [Int.bmod_def]
  split <;> omega

theorem toInt_range (x : Int) : -2147483648 ≤ toInt x ∧ toInt x < 2147483648 := by
  unfold toInt
  rw [Int.bmod_def]
  split <;> omega

theorem read_in {f : File} {n k : Nat} (h : readSize f n = some k) (h0 : 0 ≤ f.pointer) (h1 : f.pointer + k ≤ f.length) :
    read f n = some ((f.stream.drop f.pointer.toNat).take k, { f with pointer := toInt (f.pointer + k) }) := by
  unfold read
  rw [h]
  dsimp only
  rw [if_neg (by omega)]

theorem read_out {f : File} {n k : Nat} (h : readSize f n = some k) (h0 : f.pointer < 0 ∨ f.length < f.pointer + k) : read f n = none := by
  unfold read
  rw [h]
  dsimp only
  rw [if_pos h0]

theorem size_all {all : List UInt8} {p n : Nat} (hf : p + n < 2147483648) (hc : p + n ≤ all.length) : readSize ⟨all, p⟩ n = some n := by
  have hn : toInt (n : Int) = n := toInt_small (by omega) (by omega)
  unfold readSize File.length
  dsimp only
  rw [hn, if_neg (by omega), if_neg (by omega)]

theorem size_cut {all : List UInt8} {p n : Nat} (hf : p + n < 2147483648) (hp : p ≤ all.length) (hc : ¬ p + n ≤ all.length) :
    readSize ⟨all, p⟩ n = some (all.length - p) := by
  have hn : toInt (n : Int) = n := toInt_small (by omega) (by omega)
  unfold readSize File.length
  dsimp only
  rw [hn, if_neg (by omega), if_pos (by omega), if_neg (by omega)]
  exact congrArg some (by omega)

theorem size_large {all : List UInt8} {size : Nat} (h1 : 2147483648 ≤ size) (h2 : size < 4294967296) : readSize ⟨all, 0⟩ size = some size := by
  have ht : toInt (size : Int) = (size : Int) - 4294967296 := by
    unfold toInt
    rw [Int.bmod_def]
    split <;> omega
  unfold readSize File.length
  dsimp only
  rw [ht, if_neg (by omega), if_neg (by omega)]

/-- One fair request to a file inside its bytes is answered as by the ideal file. -/
theorem step_ideal {all : List UInt8} {p : Nat} (ha : all.length < 2147483648) (hp : p ≤ all.length) {a : Ask} (hf : Fair all p a) :
    step ⟨all, p⟩ a = some ((ideal all p a).1, ⟨all, (ideal all p a).2⟩) ∧ (ideal all p a).2 ≤ all.length := by
  cases a with
  | tell => exact ⟨rfl, hp⟩
  | read n =>
    have hf : p + n < 2147483648 := hf
    refine ⟨?_, by simp only [ideal]; omega⟩
    by_cases hc : p + n ≤ all.length
    · simp only [step]
      rw [read_in (size_all hf hc) (Int.natCast_nonneg p) (by simp only [File.length]; omega), toInt_small (by simp only; omega) (by simp only; omega)]
      simp only [Option.map_some, ideal, Int.toNat_natCast]
      rw [Nat.min_eq_left (by omega), Int.natCast_add]
    · simp only [step]
      rw [read_in (size_cut hf hp hc) (Int.natCast_nonneg p) (by simp only [File.length]; omega), toInt_small (by simp only; omega) (by simp only; omega)]
      simp only [Option.map_some, ideal, Int.toNat_natCast]
      rw [Nat.min_eq_right (by omega), List.take_of_length_le (by simp), List.take_of_length_le (by simp; omega), Int.natCast_add]
  | seek o g =>
    by_cases hg : g = .other
    · subst hg
      simp [step, seek, ideal, hp]
    · have hf : 0 ≤ target all p o g ∧ target all p o g < 2147483648 := by
        rcases hf with h | h
        · exact absurd h hg
        · exact h
      have hb : base ⟨all, p⟩ g + o = target all p o g := by
        cases g <;> simp_all [base, target, File.length]
      simp only [step]
      unfold seek
      rw [if_neg hg]
      dsimp only
      rw [hb, toInt_small (by omega) (by omega)]
      unfold File.length
      dsimp only
      by_cases ht : target all p o g ≤ all.length
      · rw [if_neg (by omega)]
        simp only [ideal]
        rw [if_pos ⟨hg, hf.1, ht⟩]
        refine ⟨?_, by show (target all p o g).toNat ≤ _; omega⟩
        simp only [Option.some.injEq, Prod.mk.injEq, File.mk.injEq, true_and]
        omega
      · rw [if_pos (by omega)]
        simp only [ideal]
        rw [if_neg (by omega)]
        exact ⟨rfl, hp⟩

/-- An archive below 2 GB in memory, whatever minizip asks for and however that depends on what it was told: as long as it asks for fair things
it never leaves the buffer and is told exactly what a file with these bytes tells. -/
theorem C70_archive_is_a_file_partial (u : User) (all : List UInt8) (p0 : Int) (ha : all.length < 2147483648) (n : Nat)
    (hf : ∀ k < n, Fair all (idealRun u all k).2 (u (idealRun u all k).1)) :
    run u n (openFile ⟨all, p0⟩) = some ((idealRun u all n).1, ⟨all, (idealRun u all n).2⟩) ∧ (idealRun u all n).2 ≤ all.length := by
  induction n with
  | zero => exact ⟨rfl, Nat.zero_le _⟩
  | succ n ih =>
    obtain ⟨h1, h2⟩ := ih (fun k hk => hf k (by omega))
    obtain ⟨h3, h4⟩ := step_ideal ha h2 (hf n (by omega))
    refine ⟨?_, h4⟩
    unfold run
    rw [h1]
    dsimp only
    rw [h3]
    rfl

/-- Places behind the end are always refused, by the code as by the ideal file, and nothing moves. -/
theorem C70_behind_the_end (all : List UInt8) (p : Nat) (o : Int) (g : Origin) (ht : (all.length : Int) < target all p o g)
    (h2 : target all p o g < 2147483648) (hg : g ≠ .other) : seek ⟨all, p⟩ o g = (false, ⟨all, p⟩) := by
  have hb : base ⟨all, p⟩ g + o = target all p o g := by
    cases g <;> simp_all [base, target, File.length]
  unfold seek
  rw [if_neg hg]
  dsimp only
  rw [hb, toInt_small (by omega) (by omega)]
  unfold File.length
  dsimp only
  rw [if_pos (by omega)]

/-- However the file was moved, reading never gives more bytes than were asked for: the buffer of minizip is not overrun. -/
theorem C70_no_more_than_asked (f : File) (size : Nat) (hs : size < 2147483648) (b : List UInt8) (f' : File) (h : read f size = some (b, f')) :
    b.length ≤ size := by
  have hn : toInt (size : Int) = size := toInt_small (by omega) (by omega)
  unfold read at h
  cases hk : readSize f size with
  | none => rw [hk] at h; cases h
  | some k =>
    rw [hk] at h
    dsimp only at h
    split at h
    · cases h
    · simp only [Option.some.injEq, Prod.mk.injEq] at h
      rw [← h.1]
      have : k ≤ size := by
        unfold readSize at hk
        dsimp only at hk
        rw [hn] at hk
        split at hk
        · cases hk
        · split at hk
          · split at hk
            · cases hk
            · simp only [Option.some.injEq] at hk; omega
          · simp only [Option.some.injEq] at hk; omega
      simp only [List.length_take, List.length_drop]
      omega

/-- C70 fails: an archive may name a place of 2 GB or more for a member (the field has 32 bits); moving there is accepted, and the next reading
starts before the buffer. -/
theorem C70_violated_far_place (all : List UInt8) (ha : all.length < 2147483648) (o : Nat) (h1 : 2147483648 ≤ o) (h2 : o < 4294967296) :
    (seek (openFile ⟨all, 0⟩) o .set).1 = true ∧ (seek (openFile ⟨all, 0⟩) o .set).2.pointer < 0 ∧
    read (seek (openFile ⟨all, 0⟩) o .set).2 1 = none := by
  have ht : toInt (0 + (o : Int)) = (o : Int) - 4294967296 := by
    unfold toInt
    rw [Int.bmod_def]
    split <;> omega
  have hs : seek (openFile ⟨all, 0⟩) o .set = (true, ⟨all, (o : Int) - 4294967296⟩) := by
    unfold seek openFile
    rw [if_neg (by decide)]
    dsimp only [base]
    rw [ht]
    unfold File.length
    dsimp only
    rw [if_neg (by omega)]
  rw [hs]
  refine ⟨rfl, by dsimp only; omega, ?_⟩
  unfold read
  cases readSize ⟨all, (o : Int) - 4294967296⟩ 1 with
  | none => rfl
  | some k => dsimp only; rw [if_pos (by omega)]

/-- C70 fails: a piece of 2 GB or more is not cut at the end of the archive. -/
theorem C70_violated_large_piece (all : List UInt8) (ha : all.length < 2147483648) (size : Nat) (h1 : 2147483648 ≤ size) (h2 : size < 4294967296) :
    read (openFile ⟨all, 0⟩) size = none := by
  have h := size_large (all := all) h1 h2
  exact read_out h (Or.inr (by simp only [openFile, File.length]; omega))

/-! ## Taking a member out -/

/-- What minizip answers in `unzip` (it is outside): did the archive open, was the member found, the answer to the question for its size and the
size, did the member open, what was read (the number returned, and the bytes written at the start of the buffer) and the answer at closing. -/
structure Unz where
  opened : Bool
  located : Int
  info : Int
  size : Nat
  memberOpened : Int
  got : Int
  bytes : List UInt8
  closed : Int

/-- `unzip` (MemoryFile.cpp 5-50): `none` for the exceptions.  `UNZ_OK` is 0 and `UNZ_CRCERROR` is -105.  The buffer is made of zeros (32). -/
def unzip (z : Unz) : Option (List UInt8) :=
  if z.opened = false then none
  else if z.located ≠ 0 then none
  else if z.info ≠ 0 then none
  else if z.memberOpened ≠ 0 then none
  else if z.got ≤ 0 then none
  else if z.closed = -105 then none
  else some (z.bytes ++ List.replicate (z.size - z.bytes.length) 0)

/-- What minizip promises of its answers for a member with the bytes `m`: the size is the member's, and if reading says how much it read, that
many bytes of the member are at the start of the buffer. -/
structure Unz.Honest (z : Unz) (m : List UInt8) : Prop where
  size : z.size = m.length
  read : 0 ≤ z.got → z.bytes = m.take z.got.toNat ∧ z.got ≤ m.length

/-- A member that is not empty and was read to its end is given back as it is, and nothing else is given if anything failed. -/
theorem C70_member_partial (z : Unz) (m : List UInt8) (h : z.Honest m) (hfull : z.got = m.length) (hm : m ≠ []) :
    unzip z = if z.opened = true ∧ z.located = 0 ∧ z.info = 0 ∧ z.memberOpened = 0 ∧ z.closed ≠ -105 then some m else none := by
  have hpos : 0 < m.length := List.length_pos_iff.2 hm
  obtain ⟨h1, -⟩ := h.read (by omega)
  have hb : z.bytes = m := by rw [h1, hfull]; simp
  unfold unzip
  rw [hb, h.size]
  have hg : ¬ z.got ≤ 0 := by omega
  cases ho : z.opened <;> by_cases hl : z.located = 0 <;> by_cases hi : z.info = 0 <;> by_cases hmo : z.memberOpened = 0 <;>
    by_cases hc : z.closed = -105 <;> simp [hl, hi, hmo, hc, hg]

/-- Whatever minizip answers, what is given back has the size the archive names for the member. -/
theorem C70_member_size (z : Unz) (m v : List UInt8) (h : z.Honest m) (hv : unzip z = some v) : v.length = m.length := by
  unfold unzip at hv
  repeat' split at hv
  any_goals cases hv
  rename_i hg _
  obtain ⟨h1, h2⟩ := h.read (by omega)
  rw [h.size, h1]
  simp
  omega

/-- C70 fails: a member of which minizip could read only a part is given back filled up with zeros, and not refused. -/
theorem C70_violated_short_member : ∃ z : Unz, ∃ m : List UInt8, z.Honest m ∧ unzip z = some [1, 2, 0, 0] ∧ m = [1, 2, 3, 4] :=
  ⟨⟨true, 0, 0, 4, 0, 2, [1, 2], 0⟩, [1, 2, 3, 4], ⟨rfl, fun _ => ⟨rfl, by decide⟩⟩, rfl, rfl⟩

/-- C70 fails: an empty member cannot be read. -/
theorem C70_violated_empty_member (z : Unz) (h : z.Honest []) : unzip z = none := by
  have hg : z.got ≤ 0 := by
    by_cases hg : 0 ≤ z.got
    · have := (h.read hg).2; simpa using this
    · omega
  unfold unzip
  simp [hg]

/-! ## The theorems apply -/

/-- A user that looks for the last record of an archive as minizip does: it asks for the size by moving to the end, moves back and reads. -/
def finder : User
  | [] => .seek 0 .fin
  | [_] => .tell
  | [_, .position n] => .seek (n - 4) .set
  | [_, _, .moved true] => .read 16384
  | _ => .tell

example : (∀ k < 5, Fair [9, 8, 7, 6, 5, 4] (idealRun finder [9, 8, 7, 6, 5, 4] k).2 (finder (idealRun finder [9, 8, 7, 6, 5, 4] k).1)) ∧
    run finder 5 (openFile ⟨[9, 8, 7, 6, 5, 4], 77⟩) =
      some ([.moved true, .position 6, .moved true, .bytes [7, 6, 5, 4], .position 6], ⟨[9, 8, 7, 6, 5, 4], 6⟩) := by
  refine ⟨?_, by decide +kernel⟩
  intro k hk
  rcases (by omega : k = 0 ∨ k = 1 ∨ k = 2 ∨ k = 3 ∨ k = 4) with rfl | rfl | rfl | rfl | rfl
  · exact Or.inr (by decide +kernel)
  · exact trivial
  · exact Or.inr (by decide +kernel)
  · show _ + _ < _; decide +kernel
  · exact trivial

example : (⟨true, 0, 0, 3, 0, 3, [1, 2, 3], 0⟩ : Unz).Honest [1, 2, 3] ∧ unzip ⟨true, 0, 0, 3, 0, 3, [1, 2, 3], 0⟩ = some [1, 2, 3] :=
  ⟨⟨rfl, fun _ => ⟨rfl, by decide⟩⟩, rfl⟩

end Verif.Io.Mem
