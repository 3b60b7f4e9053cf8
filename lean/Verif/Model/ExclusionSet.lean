/-
Model of `soro::infra::exclusion_set`
(`include/soro/infrastructure/exclusion/exclusion_set.h`, `src/infrastructure/exclusion/exclusion_set.cc`).

`cista::bitvec` (external) is modelled by its size and its bits. Loops over 64 bit blocks are modelled by what they
do to the bits: bit `p` lies in block `p / 64`. Block accesses out of range are the outcome `none`.
Unsigned 32 bit values are modelled by `Nat`; `INVALID_OFFSET` is `2^32 - 1`. The only place where the C++
code can wrap on well-formed sets is `last_ += ...` in `compact`; the wrap is undone two lines later.
-/

namespace Soro

/-- cista bitvec: number of bits and the bits (only indices below `size` are meaningful) -/
structure BV where
  size : Nat
  get : Nat → Bool

namespace BV

/-- bitvec `operator[]`/`test`: false beyond the size -/
def test (v : BV) (i : Nat) : Bool := decide (i < v.size) && v.get i
/-- number of 64 bit blocks -/
def nblocks (v : BV) : Nat := (v.size + 63) / 64
/-- bitvec `resize`: new bits are zero -/
def resize (v : BV) (n : Nat) : BV := ⟨n, fun i => decide (i < n) && v.test i⟩
/-- bitvec `<<=` -/
def shl (v : BV) (d : Nat) : BV := ⟨v.size, fun i => decide (i < v.size) && decide (d ≤ i) && v.test (i - d)⟩
/-- bitvec `>>=` -/
def shr (v : BV) (d : Nat) : BV := ⟨v.size, fun i => v.test (i + d)⟩
/-- bitvec `set(i)`; `none`: out of range -/
def set (v : BV) (i : Nat) : Option BV :=
  if i < v.size then some ⟨v.size, fun j => if j = i then true else v.get j⟩ else none
/-- bitvec `count` -/
def count (v : BV) : Nat := (List.range v.size).countP v.test
/-- the empty bitvec `{}` -/
def empty : BV := ⟨0, fun _ => false⟩

end BV

/-- exclusion_set.h:11-105 -/
structure ES where
  id : Nat
  first : Nat
  last : Nat
  firstSet : Nat
  lastSet : Nat
  bits : BV

/-- exclusion_set.h:16-17 -/
abbrev INVALID : Nat := 2 ^ 32 - 1

/-- `std::partial_ordering` -/
inductive POrd where
  | less | equivalent | greater | unordered
deriving DecidableEq, Repr

namespace ES

/-- a default constructed set (exclusion_set.h:96-104) with the given id -/
def fresh (id : Nat) : ES := ⟨id, INVALID, INVALID, INVALID, INVALID, BV.empty⟩

/-- exclusion_set.cc:318-326 `clear` -/
def clear (s : ES) : ES := ⟨s.id, INVALID, INVALID, INVALID, INVALID, BV.empty⟩

/-- exclusion_set.cc:328-332 `empty` -/
def isEmpty (s : ES) : Bool :=
  s.first == INVALID && s.last == INVALID && s.firstSet == INVALID && s.lastSet == INVALID && s.bits.size == 0

/-- exclusion_set.cc:7-22 `compact` -/
def compact (s : ES) : ES :=
  let first := s.firstSet / 64 * 64
  let bits := s.bits.shr (first - s.first)
  let last := s.last + (first - s.first)
  let extra := (last - s.lastSet) / 64 * 64
  { s with first, bits := bits.resize (bits.size - extra), last := last - extra }

/-- exclusion_set.cc:24-31 `get_first_set` -/
def getFirstSet (s : ES) : Nat :=
  match (List.range s.bits.size).find? s.bits.test with
  | some fs => fs + s.first
  | none => INVALID

/-- exclusion_set.cc:33-41 `get_last_set` -/
def getLastSet (s : ES) : Nat :=
  match (List.range s.bits.size).reverse.find? s.bits.test with
  | some ls => ls + s.first
  | none => INVALID

/-- exclusion_set.cc:43-53 `lower_first` -/
def lowerFirst (s : ES) (newFirst : Nat) : ES :=
  let d := s.first - newFirst
  { s with bits := (s.bits.resize (s.bits.size + d)).shl d, first := newFirst }

/-- exclusion_set.cc:55-64 `increase_last` -/
def increaseLast (s : ES) (newLast : Nat) : ES :=
  let d := newLast - s.last
  { s with bits := s.bits.resize (s.bits.size + d), last := newLast }

/-- exclusion_set.cc:66-98 `contains_impl`: every block of `b` is contained in the corresponding block of `a`.
`none`: a block of `a` is accessed out of range. -/
def containsImpl (a b : ES) : Option Bool :=
  let diff := (b.first - a.first) / 64
  if b.bits.nblocks + diff ≤ a.bits.nblocks then
    some ((List.range (64 * b.bits.nblocks)).all fun p => !b.bits.test p || a.bits.test (p + 64 * diff))
  else none

/-- exclusion_set.cc:100-135 `contains_impl_same_size` -/
def containsImplSameSize (a b : ES) : POrd :=
  let aSub := (List.range (64 * a.bits.nblocks)).all fun p => !a.bits.test p || b.bits.test p
  let bSub := (List.range (64 * a.bits.nblocks)).all fun p => !b.bits.test p || a.bits.test p
  if aSub then (if bSub then .equivalent else .less) else (if bSub then .greater else .unordered)

/-- exclusion_set.cc:137-147 `expanded_set` -/
def expandedSet (s : ES) : List Nat :=
  ((List.range s.bits.size).filter s.bits.test).map (s.first + ·)

/-- exclusion_set.cc:151-157 `operator[]` -/
def idx (s : ES) (i : Nat) : Bool :=
  if i < s.firstSet ∨ i > s.lastSet then false else s.bits.test (i - s.first)

/-- exclusion_set.cc:159-175 `set`; `none`: bit index out of range. -/
def set (s : ES) (i : Nat) : Option ES :=
  let s1 :=
    if i < s.first then s.lowerFirst (i / 64 * 64)
    else if i > s.last then s.increaseLast ((i / 64 + 1) * 64 - 1)
    else s
  (s1.bits.set (i - s1.first)).map fun bits =>
    { s1 with bits, firstSet := min i s1.firstSet, lastSet := max i s1.lastSet }

/-- exclusion_set.cc:208-211: the block loop of `operator-=`. -/
def maskBlocks (a o : ES) : Option BV :=
  if a.first ≤ o.first then
    let diff := (o.first - a.first) / 64
    if a.bits.nblocks < diff then none else
    let to := min (a.bits.nblocks - diff) o.bits.nblocks
    some ⟨a.bits.size, fun p =>
      if diff ≤ p / 64 ∧ p / 64 < diff + to then a.bits.get p && !o.bits.test (p - 64 * diff) else a.bits.get p⟩
  else
    let diff := (a.first - o.first) / 64
    if o.bits.nblocks < diff then none else
    let to := min a.bits.nblocks (o.bits.nblocks - diff)
    some ⟨a.bits.size, fun p =>
      if p / 64 < to then a.bits.get p && !o.bits.test (p + 64 * diff) else a.bits.get p⟩

/-- exclusion_set.cc:177-231 `operator-=` with another object; `none`: block access out of range. -/
def diff (a o : ES) : Option ES :=
  if a.isEmpty || o.isEmpty then some a
  else if ¬ (a.lastSet ≥ o.firstSet ∧ o.lastSet ≥ a.firstSet) then some a
  else
    (a.maskBlocks o).map fun bits =>
      let s1 : ES := { a with bits }
      let s2 : ES := if s1.bits.test (s1.firstSet - s1.first) then s1 else { s1 with firstSet := s1.getFirstSet }
      if s2.firstSet = INVALID then s2.clear
      else
        let s3 : ES := if s2.bits.test (s2.lastSet - s2.first) then s2 else { s2 with lastSet := s2.getLastSet }
        s3.compact

/-- exclusion_set.cc:178-181 `a -= a` -/
def diffSelf (a : ES) : ES := a.clear

/-- exclusion_set.cc:254-256: the block loop of `operator|=`; `none`: block access out of range. -/
def orBlocks (a o : ES) : Option BV :=
  let diff := (o.first - a.first) / 64
  if o.bits.nblocks + diff ≤ a.bits.nblocks then
    some ⟨a.bits.size, fun p =>
      if diff ≤ p / 64 ∧ p / 64 < diff + o.bits.nblocks then a.bits.get p || o.bits.test (p - 64 * diff)
      else a.bits.get p⟩
  else none

/-- exclusion_set.cc:233-264 `operator|=` with another object (`a |= a` returns `a` unchanged, lines 234-236).
Note that an empty left operand takes over the id of the right one (line 239). -/
def union (a o : ES) : Option ES :=
  if o.isEmpty then some a
  else
    let a1 := if a.isEmpty then o else a
    let a2 := if a1.first > o.first then a1.lowerFirst o.first else a1
    let a3 := if a2.last < o.last then a2.increaseLast o.last else a2
    (a3.orBlocks o).map fun bits =>
      { a3 with bits, firstSet := min a3.firstSet o.firstSet, lastSet := max a3.lastSet o.lastSet }

/-- exclusion_set.cc:278-308 `compare`; `alias` says that both are the same object. -/
def compare (a o : ES) (alias : Bool) : Option POrd :=
  if a.isEmpty && !o.isEmpty then some .less
  else if o.isEmpty then some .greater
  else if alias then some .equivalent
  else if a.first = o.first ∧ a.last = o.last then some (containsImplSameSize a o)
  else if a.firstSet ≤ o.firstSet ∧ a.lastSet ≥ o.lastSet then
    (containsImpl a o).map fun c => if c then .greater else .unordered
  else if a.firstSet ≥ o.firstSet ∧ a.lastSet ≤ o.lastSet then
    (containsImpl o a).map fun c => if c then .less else .unordered
  else some .unordered

/-- exclusion_set.cc:310-312 `contains` (`std::is_gteq`) -/
def contains (a o : ES) (alias : Bool) : Option Bool :=
  (a.compare o alias).map fun c => c == .greater || c == .equivalent

/-- exclusion_set.cc:316 `count` -/
def count (s : ES) : Nat := s.bits.count

/-- exclusion_set.h:48-50, the loop of `iterator::operator++` -/
def skip (s : ES) (i : Nat) : Nat :=
  if i < s.bits.size ∧ s.bits.test i = false then s.skip (i + 1) else i
termination_by s.bits.size - i

theorem le_skip (s : ES) (i : Nat) : i ≤ s.skip i := by
  fun_induction ES.skip s i <;> omega

/-- The range-for loop from iterator position `i` (exclusion_set.h:22-67); `none`: runs past the end. -/
def walk (s : ES) (i : Nat) : Option (List Nat) :=
  if i = s.bits.size then some []
  else if i < s.bits.size then (s.walk (s.skip (i + 1))).map ((s.first + i) :: ·)
  else none
termination_by s.bits.size - i
decreasing_by
  have := le_skip s (i + 1)
  omega

/-- exclusion_set.h:66-67: iterate `begin()`..`end()` -/
def iterate (s : ES) : Option (List Nat) := s.walk (s.firstSet - s.first)

/-- exclusion_set.cc:334-409 `ok` -/
def ok (s : ES) : Bool :=
  s.isEmpty ||
  ((s.first != INVALID && s.last != INVALID && s.firstSet != INVALID && s.lastSet != INVALID && s.bits.size != 0)
   && (decide (s.first ≤ s.firstSet) && decide (s.last ≥ s.lastSet))
   && decide (s.first < s.last)
   && (decide (s.firstSet ≤ s.first + 64) && decide (s.lastSet ≥ s.last - 63))
   && decide (s.bits.size ≥ (s.lastSet - s.firstSet + 1) / 64 + 1)
   && (s.bits.test (s.firstSet - s.first) && s.bits.test (s.lastSet - s.first))
   && (s.getFirstSet == s.firstSet && s.getLastSet == s.lastSet))

/-- exclusion_set.cc:438-441: set the bit of every id; `none`: an id outside the window. -/
def setBits (v : BV) (first : Nat) : List Nat → Option BV
  | [] => some v
  | i :: is => if first ≤ i then (v.set (i - first)).bind fun v' => setBits v' first is else none

/-- exclusion_set.cc:411-446 `make_exclusion_set` -/
def make (id : Nat) (ids : List Nat) : Option ES :=
  match ids with
  | [] => some (fresh id)
  | i :: _ =>
    let firstSet := i
    let lastSet := ids.getLastD i
    let first := firstSet / 64 * 64
    let last := (lastSet / 64 + 1) * 64 - 1
    (setBits (BV.empty.resize (last - first + 1)) first ids).map fun bits =>
      { id, first, last, firstSet, lastSet, bits }

end ES
end Soro
